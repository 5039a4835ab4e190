import Verif.Lemmas.F64FMM
import Verif.Lemmas.ApproxUntidy
import Verif.Lemmas.UQF64
import Verif.Props.UFMMExact
import Verif.Props.LowF64
import Verif.Props.F64Accuracy
/-! UFMM in doubles: the invariants of a run. -/
set_option linter.unusedSectionVars false
set_option linter.unusedVariables false
namespace FMV
open Spec Shape XR FMM
variable {R : Rounding}

namespace DInput
variable {dims : List Nat} {g : Grid (F64 R)} {h : ℝ} {v : Nat → ℝ} {pts : List Nat} {cm cM A : ℝ}

structure FVMid (I : DInput dims g h v pts cm cM A) (Δ w : ℝ) (L : Nat) (Θ : ℝ) (x : Nat) (todo : List Nat) (s : St (F64 R)) : Prop where
  map : SameMap g s.g
  good : GoodG (gridX s.g)
  hz : ∀ i, ((s.g.cells i).hValue).1 = fin 0
  q : I.X.VMid I.θ I.β Δ w L Θ x todo (tf s.g) s.g.state s.heap
  low : ∀ U : Nat → WithTop ℝ, I.X.problem.IsSolution U → ∀ j, j < dims.prod → scl I.lowF (U j) ≤ tf s.g j

theorem FVMid.relax (I : DInput dims g h v pts cm cM A) {Δ w Θ : ℝ} {L : Nat} (hΔ : 0 ≤ Δ) (P : I.X.Par I.θ I.β w L) (hwA : (w + (I.θ + 2 * I.β + Δ)) * (L + 2) ≤ A) (hna : I.X.NonAdj) {cfg : Cfg (F64 R)}
    (hcfg : cfg.heur = .none) {x j : Nat} {rest : List Nat} {s : St (F64 R)} (m : I.FVMid Δ w L Θ x (j :: rest) s) (hj : j ∈ (Shape.mk' dims).nbrs x)
    (hjr : j ∉ rest) : I.FVMid Δ w L Θ x rest (FMM.relax cfg eikS s j) := by
  have hjN : j < dims.prod := FMM.nbr_lt I.X.fits (m.q.fzN x m.q.fx) hj
  have hsm := m.map.trans (relax_sameMap cfg eikS s j)
  have hheur : ∀ (g' : Grid (F64 R)) i, applyHeur cfg g' i = g' := by
    intro g' i; unfold applyHeur; rw [hcfg]
  have hocc : s.g.occ j = g.occ j := SameMap.occ_eq m.map j
  have hA : ∀ i (r : ℝ), tf s.g i = (r : WithTop ℝ) → r ≤ A := fun i r hr => le_trans (m.q.bnd i r hr) hwA
  have hlow := fun (U : Nat → WithTop ℝ) (hU : I.X.problem.IsSolution U) => I.low_relax hU (cfg := cfg) m.map m.good hA (m.low U hU) hjN
  rcases relax_cases cfg eikS s j with ⟨hsk, e⟩ | ⟨ho, hn, hb, e⟩ | ⟨ho, hn, hb, e⟩ | ⟨ho, hn, e⟩
  · rw [e] at hsm hlow ⊢
    exact ⟨hsm, m.good, m.hz, m.q.skip I.X (by rw [gridX_occ, ← hocc]; exact hsk), hlow⟩
  · rw [hocc] at ho
    obtain ⟨hgd, hap⟩ := I.eik m.map m.good hA hjN ho
    rw [e] at hsm hlow ⊢
    simp only [hheur] at hsm hlow ⊢
    refine ⟨hsm, good_setValue (g := s.g.setScratch _) m.good hgd, hz_setValue (g := s.g.setScratch _) m.hz _ _, ?_, hlow⟩
    show I.X.VMid _ _ _ _ _ _ x rest (tf ((s.g.setScratch _).setValue j _)) _ _
    rw [tf_setValue]
    refine m.q.update I.X hna hΔ P hj hjr ho (by rw [hn]; simp) ?_ ?_ hap ?_ (Or.inl ⟨?_, Or.inr (accept hgd (m.good j) hb)⟩)
    · intro k; simp only [Grid.state_setValue, Grid.state_setScratch]
      split
      · next hk => rw [hk, hn]
      · rfl
    · intro y; dsimp only; split
      · rw [List.mem_cons]; tauto
      · constructor
        · exact Or.inl
        · rintro (h1 | rfl)
          · exact h1
          · exact (m.q.nar y hn).1
    · intro k hk; rw [if_neg hk]; rfl
    · rw [if_pos rfl]
  · rw [hocc] at ho
    obtain ⟨hgd, hap⟩ := I.eik m.map m.good hA hjN ho
    rw [e] at hsm hlow ⊢
    simp only [hheur] at hsm hlow ⊢
    refine ⟨hsm, m.good, m.hz, ?_, hlow⟩
    refine m.q.update I.X hna hΔ P hj hjr ho (by rw [hn]; simp) ?_ ?_ hap (fun k _ => rfl)
      (Or.inr ⟨hn, rfl, I.reject hgd (m.good j) hb (I.eik_le hA hjN ho hap)⟩)
    · intro k; simp only [Grid.state_setScratch]
      split
      · next hk => rw [hk, hn]
      · rfl
    · intro y; constructor
      · exact Or.inl
      · rintro (h1 | rfl)
        · exact h1
        · exact (m.q.nar y hn).1
  · rw [hocc] at ho
    obtain ⟨hgd, hap⟩ := I.eik m.map m.good hA hjN ho
    rw [e] at hsm hlow ⊢
    simp only [hheur] at hsm hlow ⊢
    have hgs : GoodG (gridX ((s.g.setScratch (eikS s.g j).2).setState j .narrow)) := by
      intro k; simp only [gridX_value, Grid.value_setState, Grid.value_setScratch]; exact m.good k
    refine ⟨hsm, good_setValue hgs hgd, hz_setValue (hz_setState (g := s.g.setScratch _) m.hz _ _) _ _, ?_, hlow⟩
    show I.X.VMid _ _ _ _ _ _ x rest (tf (((s.g.setScratch _).setState j _).setValue j _)) _ _
    rw [tf_setValue]
    refine m.q.update I.X hna hΔ P hj hjr ho (by rw [hn]; simp) ?_ ?_ hap ?_ (Or.inl ⟨?_, Or.inl hn⟩)
    · intro k; simp only [Grid.state_setValue, Grid.state_setState, Grid.state_setScratch]
    · intro y; dsimp only; rw [List.mem_cons]; tauto
    · intro k hk; rw [if_neg hk]; unfold tf tv; simp
    · rw [if_pos rfl]

theorem FVMid.fold (I : DInput dims g h v pts cm cM A) {Δ w Θ : ℝ} {L : Nat} (hΔ : 0 ≤ Δ) (P : I.X.Par I.θ I.β w L) (hwA : (w + (I.θ + 2 * I.β + Δ)) * (L + 2) ≤ A) (hna : I.X.NonAdj) {cfg : Cfg (F64 R)}
    (hcfg : cfg.heur = .none) {x : Nat} : ∀ (l : List Nat) (s : St (F64 R)), l.Nodup → (∀ j ∈ l, j ∈ (Shape.mk' dims).nbrs x) → I.FVMid Δ w L Θ x l s →
    I.FVMid Δ w L Θ x [] (l.foldl (FMM.relax cfg eikS) s) := by
  intro l
  induction l with
  | nil => intro s _ _ m; exact m
  | cons j l ih =>
    intro s hnd hl m
    rw [List.nodup_cons] at hnd
    rw [List.foldl_cons]
    exact ih _ hnd.2 (fun k hk => hl k (by simp [hk])) (FVMid.relax I hΔ P hwA hna hcfg m (hl j (by simp)) hnd.1)

end DInput

namespace UFMM
variable {dims : List Nat} {g : Grid (F64 R)} {h : ℝ} {v : Nat → ℝ} {pts : List Nat} {cm cM A : ℝ}

/-- one rounding error of the beginning of the queue (or of the bucket computation) -/
noncomputable def qerr (A inc : ℝ) : ℝ := 16 * uu * (A + inc)

/-- numbers for which the queue works in doubles: `e` is the error of an update, `w` the longest time to cross a cell -/
structure QOk (n : Nat) (inc A w e : ℝ) : Prop where
  pos : 0 < n
  le : n ≤ 2^30
  inc1 : (2:ℝ)^(-900:ℤ) ≤ inc
  inc2 : inc ≤ (2:ℝ)^(900:ℤ)
  A0 : 0 ≤ A
  A2 : A ≤ (2:ℝ)^(300:ℤ)
  e0 : 0 ≤ e
  w0 : 0 ≤ w
  win : w + inc / n + n * qerr A inc ≤ inc
  wide : n * qerr A inc + e + 9 * uu * inc < inc / n

structure QInv64 (n : Nat) (inc A e : ℝ) (u : St (F64 R)) (τ : ℝ) : Prop where
  size : u.q.size = n
  incMax : u.q.incMax.1 = .fin inc
  delta : ∃ d : ℝ, u.q.delta.1 = .fin d ∧ |d - inc / n| ≤ uu * inc
  t0 : u.q.t0.1 = .fin τ
  ub : ∀ x : F64 R, ∀ r : ℝ, x.1 = .fin r → -1 < r → r < 0 → u.q.ub x = 0
  placed : ∀ j, u.g.state j = .narrow → ∃ t : ℝ, (u.g.value j).1 = .fin t ∧
    (τ + (UQ.ahead n u.q.i0 (u.g.cells j).bucket : ℝ) * (inc / n) - ((n : ℝ) - UQ.ahead n u.q.i0 (u.g.cells j).bucket) * qerr A inc
      - (if UQ.ahead n u.q.i0 (u.g.cells j).bucket = 0 then e else 0) ≤ t) ∧
    t ≤ τ + ((UQ.ahead n u.q.i0 (u.g.cells j).bucket : ℝ) + 1) * (inc / n) + ((n : ℝ) - UQ.ahead n u.q.i0 (u.g.cells j).bucket) * qerr A inc

theorem fin_of_tf {g : Grid (F64 R)} (hg : GoodG (gridX g)) {j : Nat} (h : tf g j ≠ ⊤) : ∃ t : ℝ, (g.value j).1 = .fin t ∧ tf g j = (t : WithTop ℝ) := by
  rcases hg j with h1 | ⟨r, _, h1⟩
  · exfalso; apply h; rw [gridX_value] at h1; rw [tf_eq, h1]; rfl
  · rw [gridX_value] at h1; exact ⟨r, h1, by rw [tf_eq, h1]; rfl⟩

/-- the bucket of a new key -/
theorem QInv64.bucket {n : Nat} {inc A w e : ℝ} (K : QOk n inc A w e) {u : St (F64 R)} {τ : ℝ} (Q : QInv64 n inc A e u τ) (hi0 : u.q.i0 < n)
    {k : F64 R} {t : ℝ} (hk : k.1 = .fin t) (h1 : τ - n * qerr A inc - e ≤ t) (h2 : t ≤ τ + inc) :
    (τ + (UQ.ahead n u.q.i0 (u.q.bucketOf k) : ℝ) * (inc / n) - ((n : ℝ) - UQ.ahead n u.q.i0 (u.q.bucketOf k)) * qerr A inc
      - (if UQ.ahead n u.q.i0 (u.q.bucketOf k) = 0 then e else 0) ≤ t) ∧
    t ≤ τ + ((UQ.ahead n u.q.i0 (u.q.bucketOf k) : ℝ) + 1) * (inc / n) + ((n : ℝ) - UQ.ahead n u.q.i0 (u.q.bucketOf k)) * qerr A inc := by
  have hincp : 0 < inc := lt_of_lt_of_le (zpow_pos (by norm_num) _) K.inc1
  have hu := uu_pos
  have hw := K.wide
  have he := K.e0
  have hA := K.A0
  have hq : 9 * uu * inc ≤ qerr A inc := by
    have h1 : 0 ≤ uu * A := by positivity
    have h2 : 0 ≤ uu * inc := by positivity
    unfold qerr; linarith
  have hq0 : 0 ≤ qerr A inc := by unfold qerr; positivity
  obtain ⟨r, hr, hb, c1, c2⟩ := UQ.bucketOf_f64 K.pos K.le K.inc1 K.inc2 Q.size Q.incMax Q.t0 Q.ub hk (by linarith) (by linarith)
  rw [hb, UQ.ahead_add hi0 hr]
  have hrn : (r : ℝ) + 1 ≤ n := by exact_mod_cast hr
  have hm : qerr A inc ≤ ((n : ℝ) - r) * qerr A inc := by
    have : 1 * qerr A inc ≤ ((n : ℝ) - r) * qerr A inc := mul_le_mul_of_nonneg_right (by linarith) hq0
    linarith
  have hnR : (0 : ℝ) < n := by exact_mod_cast K.pos
  constructor
  · rcases c1 with rfl | c1
    · rw [if_pos rfl]; push_cast; linarith
    · have : 0 ≤ (if r = 0 then e else 0) := by split <;> linarith
      linarith
  · rcases c2 with c2 | c2
    · have e1 : ((r : ℝ) + 1) = n := by exact_mod_cast c2
      have e2 : ((r : ℝ) + 1) * (inc / n) = inc := by rw [e1]; field_simp
      rw [e2]; linarith
    · linarith

theorem QInv64.relax (I : DInput dims g h v pts cm cM A) {n : Nat} {inc w : ℝ} {L : Nat} (K : QOk n inc A w (I.θ + 2 * I.β))
    {u : St (F64 R)} {τ : ℝ} (Q : QInv64 n inc A (I.θ + 2 * I.β) u τ)
    (hi0 : u.q.i0 < u.q.size) (hnb : u.q.nb ≠ 0) {x j : Nat} {rest heap heap' : List Nat} {b b' : Bool}
    (hjr : j ∉ rest) (hj : j ∈ (Shape.mk' dims).nbrs x)
    (m' : I.FVMid (inc / n + 2 * (n * qerr A inc)) w L (τ - n * qerr A inc) x rest ⟨(UFMM.relax eikS u j).g.nob, heap', b'⟩) :
    QInv64 n inc A (I.θ + 2 * I.β) (UFMM.relax eikS u j) τ := by
  have hi0' : u.q.i0 < n := by rw [← Q.size]; exact hi0
  have hxN := m'.q.fzN x m'.q.fx
  have hjN : j < dims.prod := FMM.nbr_lt I.X.fits hxN hj
  have key : (UFMM.relax eikS u j).g.state j = .narrow → ∃ t : ℝ, ((UFMM.relax eikS u j).g.value j).1 = .fin t ∧
      τ - n * qerr A inc - (I.θ + 2 * I.β) ≤ t ∧ t ≤ τ + inc := by
    intro hst
    have h1 := (m'.q.nar j hst).1
    obtain ⟨t, h2, h3⟩ := fin_of_tf m'.good (m'.q.finH j h1)
    refine ⟨t, h2, ?_, ?_⟩
    · have := m'.q.nfge j hjN (by show (UFMM.relax eikS u j).g.state j ≠ _; rw [hst]; simp)
      dsimp only at this
      rw [h3] at this
      have : τ - n * qerr A inc ≤ t + (I.θ + 2 * I.β) := by exact_mod_cast this
      linarith
    · have a1 := m'.q.n1 j hst hjr x (nbrs_symm I.X.fits hxN hj) m'.q.fx
      have a2 := m'.q.fzle x m'.q.fx
      dsimp only at a1 a2
      rw [h3] at a1
      have a3 : (t : WithTop ℝ) ≤ ((τ - n * qerr A inc + (inc / n + 2 * (n * qerr A inc)) + w : ℝ) : WithTop ℝ) := by
        refine le_trans a1 ?_
        rw [WithTop.coe_add]
        exact add_le_add_left a2 _
      have a4 : t ≤ τ - n * qerr A inc + (inc / n + 2 * (n * qerr A inc)) + w := by exact_mod_cast a3
      have := K.win
      linarith
  rcases relax_cases eikS u j with ⟨hsk, e⟩ | ⟨ho, hnr, hbt, e⟩ | ⟨ho, hnr, hbt, e⟩ | ⟨ho, hop, e⟩
  · rw [e]; exact Q
  · rw [e] at key ⊢
    obtain ⟨t, ht, h1, h2⟩ := key (by simpa using hnr)
    simp only [Grid.value_setBucket, Grid.value_setValue, if_true] at ht
    have hW := Q.bucket K hi0' ht h1 h2
    have hp := UQ.increase_params u.q j (u.g.cells j).bucket (eikS u.g j).1
    have hub : (u.q.increase j (u.g.cells j).bucket (eikS u.g j).1).1.ub = u.q.ub := by unfold UQ.increase; dsimp only; split <;> rfl
    refine ⟨by rw [UQ.increase_size]; exact Q.size, by rw [hp.1]; exact Q.incMax, by rw [hp.2]; exact Q.delta, by rw [UQ.increase_t0]; exact Q.t0,
      by rw [hub]; exact Q.ub, ?_⟩
    intro k hk
    dsimp only
    rw [cells_setBucket, UQ.increase_i0]
    by_cases hkj : k = j
    · subst hkj
      rw [if_pos rfl]
      dsimp only
      exact ⟨t, by simpa [Grid.value_setBucket, Grid.value_setValue] using ht, hW⟩
    · rw [if_neg hkj, bucket_setValue]
      simp only [Grid.value_setBucket, Grid.value_setValue, if_neg hkj, Grid.value_setScratch]
      exact Q.placed k (by simpa using hk)
  · rw [e]
    exact ⟨Q.size, Q.incMax, Q.delta, Q.t0, Q.ub, Q.placed⟩
  · rw [e] at key ⊢
    obtain ⟨t, ht, h1, h2⟩ := key (by simp [Grid.state_setState])
    simp only [Grid.value_setBucket, Grid.value_setValue, if_true] at ht
    have hW := Q.bucket K hi0' ht h1 h2
    have hpu : u.q.push j (eikS u.g j).1 = (({ u.q with nb := u.q.nb + 1 } : UQ (F64 R)).cons (u.q.bucketOf (eikS u.g j).1) j, u.q.bucketOf (eikS u.g j).1) := by
      unfold UQ.push; rw [if_neg hnb]
    rw [hpu]
    refine ⟨Q.size, Q.incMax, Q.delta, Q.t0, Q.ub, ?_⟩
    intro k hk
    dsimp only
    rw [cells_setBucket]
    by_cases hkj : k = j
    · subst hkj
      rw [if_pos rfl]
      dsimp only
      exact ⟨t, by simpa [Grid.value_setBucket, Grid.value_setValue] using ht, hW⟩
    · rw [if_neg hkj, bucket_setValue, bucket_setState]
      simp only [Grid.value_setBucket, Grid.value_setValue, if_neg hkj, Grid.value_setScratch, Grid.value_setState]
      exact Q.placed k (by simpa [Grid.state_setState, hkj] using hk)

theorem QInv64.fold (I : DInput dims g h v pts cm cM A) {n : Nat} {inc w : ℝ} {L : Nat} (K : QOk n inc A w (I.θ + 2 * I.β))
    (hΔ : 0 ≤ inc / n + 2 * (n * qerr A inc)) (P : I.X.Par I.θ I.β w L) (hwA : (w + (I.θ + 2 * I.β + (inc / n + 2 * (n * qerr A inc)))) * (L + 2) ≤ A)
    (hna : I.X.NonAdj) {goal : Nat} {τ : ℝ} {x : Nat} {rem : List Nat} {g0 : Grid (F64 R)} :
    ∀ (l : List Nat) (u : St (F64 R)), l.Nodup → (∀ j ∈ l, j ∈ (Shape.mk' dims).nbrs x) → Inv g0 pts u rem → u.q.Shows x → u.g.state x = .frozen →
    (∀ j ∈ l, rem ≠ [] → g0.occ j = false → j ∉ pts) → ∀ heap : List Nat, u.q.content = x ::ₘ (heap : Multiset Nat) →
    QInv64 n inc A (I.θ + 2 * I.β) u τ → I.FVMid (inc / n + 2 * (n * qerr A inc)) w L (τ - n * qerr A inc) x l ⟨u.g.nob, heap, u.stop⟩ →
    QInv64 n inc A (I.θ + 2 * I.β) (l.foldl (UFMM.relax eikS) u) τ ∧ (l.foldl (UFMM.relax eikS) u).q.Shows x ∧
    ∃ heap' b, l.foldl (FMM.relax (fcfg goal) eikS) ⟨u.g.nob, heap, u.stop⟩ = ⟨(l.foldl (UFMM.relax eikS) u).g.nob, heap', b⟩ ∧
      I.FVMid (inc / n + 2 * (n * qerr A inc)) w L (τ - n * qerr A inc) x [] ⟨(l.foldl (UFMM.relax eikS) u).g.nob, heap', b⟩ := by
  intro l
  induction l with
  | nil => intro u _ _ I hS _ _ heap hc Q m; exact ⟨Q, hS, heap, u.stop, rfl, m⟩
  | cons j l ih =>
    intro u hnd hl J hS hfx hjp heap hc Q m
    rw [List.nodup_cons] at hnd
    obtain ⟨J', hS', hf', hst, heap', e, hc'⟩ := J.relax (goal := goal) eikS_bucketFree (dims := []) hS hfx (hjp j (by simp)) hc
    have m' := DInput.FVMid.relax I hΔ P hwA hna (cfg := fcfg goal) rfl m (hl j (by simp)) hnd.1
    rw [e] at m'
    have hnb : u.q.nb ≠ 0 := by
      intro h0
      have := J.wf.nb_zero.1 h0
      rw [hc] at this; simp at this
    have Q' := Q.relax I K J.wf.i0 hnb (heap := heap) (b := u.stop) hnd.1 (hl j (by simp)) m'
    rw [List.foldl_cons, List.foldl_cons, e]
    rw [← hst] at m' ⊢
    exact ih _ hnd.2 (fun k hk => hl k (by simp [hk])) J' hS' hf' (fun k hk => hjp k (by simp [hk])) heap' hc' Q' m'

theorem _root_.FMV.FMM.foldl_skip {F : Type} [Arith F] (cfg : Cfg F) (eik : Eik F) : ∀ (l : List Nat) (s : FMM.St F),
    (∀ j ∈ l, s.g.state j = .frozen ∨ s.g.occ j = true) → l.foldl (FMM.relax cfg eik) s = s := by
  intro l
  induction l with
  | nil => intro s _; rfl
  | cons j l ih =>
    intro s hs
    rw [List.foldl_cons, FMM.relax_skip (hs j (by simp))]
    exact ih s (fun k hk => hs k (by simp [hk]))

/-- nothing is left to do: the queue has no cells of the narrow band -/
def Dead (pts : List Nat) (st : Nat → FMState) : Prop := (∀ k ∈ pts, st k = .frozen) ∧ ∀ j, st j ≠ .narrow

/-- the whole invariant -/
structure XInv64 (I : DInput dims g h v pts cm cM A) (n : Nat) (inc w : ℝ) (L : Nat) (g0 : Grid (F64 R)) (u : St (F64 R)) (rem heap : List Nat) (Θ : ℝ) : Prop where
  inv : Inv g0 pts u rem
  cont : u.q.content = (heap : Multiset Nat)
  map : SameMap g u.g.nob
  good : GoodG (gridX u.g.nob)
  hz : ∀ i, ((u.g.nob.cells i).hValue).1 = fin 0
  vinv : I.X.VInv I.θ I.β (inc / n + 2 * (n * qerr A inc)) w L Θ (tf u.g.nob) u.g.nob.state heap
  low : ∀ U : Nat → WithTop ℝ, I.X.problem.IsSolution U → ∀ j, j < dims.prod → scl I.lowF (U j) ≤ tf u.g.nob j
  q : Dead pts u.g.nob.state ∨ ∃ τ, 0 ≤ τ ∧ Θ = τ - n * qerr A inc ∧ QInv64 n inc A (I.θ + 2 * I.β) u τ

theorem XInv64.step (I : DInput dims g h v pts cm cM A) (hna : I.X.NonAdj) {n : Nat} {inc w : ℝ} {L : Nat} (K : QOk n inc A w (I.θ + 2 * I.β))
    (P : I.X.Par I.θ I.β w L) (hwA : (w + (I.θ + 2 * I.β + (inc / n + 2 * (n * qerr A inc)))) * (L + 2) ≤ A) {goal : Nat} {g0 : Grid (F64 R)}
    (hap : ∀ a ∈ pts, ∀ b ∈ g0.shape.nbrs a, g0.occ b = false → b ∉ pts) (hmap0 : SameMap g0 g)
    {u u' : St (F64 R)} {rem heap : List Nat} {Θ₀ : ℝ} (J : XInv64 I n inc w L g0 u rem heap Θ₀) (hs : Step goal eikS u u') :
    ∃ rem' heap' Θ, XInv64 I n inc w L g0 u' rem' heap' Θ := by
  obtain ⟨x', hx', hxh, rem', I', heap', e', hc'⟩ := J.inv.step eikS_bucketFree hap hs J.cont
  obtain ⟨hnd, x, hx, rfl⟩ := hs
  have hxx : x' = x := by rw [hx'] at hx; exact Option.some.inj hx
  subst hxx
  have hincp : 0 < inc := lt_of_lt_of_le (zpow_pos (by norm_num) _) K.inc1
  have hnR : (0 : ℝ) < n := by exact_mod_cast K.pos
  have hδ : 0 < inc / n := div_pos hincp hnR
  have hu := uu_pos
  have hA0 := K.A0
  have hq0 : 0 ≤ qerr A inc := by unfold qerr; positivity
  have hnq : 0 ≤ n * qerr A inc := by positivity
  have hΔ : 0 ≤ inc / n + 2 * (n * qerr A inc) := by linarith
  have I0 := J.inv
  have hS : u.q.top.1.Shows x' := hx
  have hk := UQ.settle_keeps u.q
  have hW := UQ.settle_wf I0.wf
  have hsh : u.g.shape = Shape.mk' dims := J.map.shape.trans I.X.shape
  have hxN := J.vinv.heapN x' hxh
  have hrem : rem ≠ [] → u.q.settle = u.q := by
    intro hne
    apply UQ.advance_stay
    intro h0
    have := I0.suf; rw [h0] at this
    exact hne (List.suffix_nil.1 this)
  have hsuf : rem <:+ u.q.settle.tab u.q.settle.i0 := by
    by_cases hne : rem = []
    · rw [hne]; exact List.nil_suffix
    · rw [hrem hne]; exact I0.suf
  have hxp : rem ≠ [] → x' ∈ pts := by
    intro hne
    obtain ⟨B, hB⟩ := hsuf
    have hS' : (u.q.settle.tab u.q.settle.i0).getLast? = some x' := hS
    rw [← hB, List.getLast?_append_of_ne_nil _ hne] at hS'
    exact (I0.remp x' (List.mem_of_getLast? hS')).1
  have hpr : rem = [] → ∀ k ∈ pts, u.g.state k = .frozen := by
    intro h0 k hk
    rcases (I0.start k hk).2 with h1 | h1
    · exact h1
    · rw [h0] at h1; simp at h1
  have hord : x' ∈ pts ∨ ∀ k ∈ pts, u.g.nob.state k = .frozen := by
    by_cases hne : rem = []
    · exact Or.inr (hpr hne)
    · exact Or.inl (hxp hne)
  -- the state in which the neighbours are visited
  have e2 : (u.g.nob.setState x' .frozen).state = fun k => if k = x' then .frozen else u.g.nob.state k := by
    funext k; simp [Grid.state_setState]
  have mk : ∀ {Θ : ℝ}, Θ₀ ≤ Θ → (Θ = Θ₀ ∨ ∀ k, k < dims.prod → u.g.nob.state k ≠ .frozen → (Θ : WithTop ℝ) ≤ tf u.g.nob k) →
      tf u.g.nob x' ≤ ((Θ + (inc / n + 2 * (n * qerr A inc)) : ℝ) : WithTop ℝ) →
      I.FVMid (inc / n + 2 * (n * qerr A inc)) w L Θ x' ((Shape.mk' dims).nbrs x') ⟨(u.g.setState x' .frozen).nob, heap.erase x', u.stop⟩ := by
    intro Θ c1 c2 c3
    have mid := J.vinv.pop I.X hΔ P hxh c1 c2 c3 hord
    rw [Grid.nob_setState]
    have e1 : tf (u.g.nob.setState x' .frozen) = tf u.g.nob := by funext k; unfold tf tv; simp
    refine ⟨J.map.trans (sameMap_setState _ _ _), ?_, DInput.hz_setState J.hz _ _, ?_, ?_⟩
    rotate_left 2
    · intro U hU j hj
      show _ ≤ tf (u.g.nob.setState x' .frozen) j
      rw [e1]; exact J.low U hU j hj
    · intro k; simp only [gridX_value, Grid.value_setState]; exact J.good k
    · show I.X.VMid _ _ _ _ _ _ _ _ (tf (u.g.nob.setState x' .frozen)) (u.g.nob.setState x' .frozen).state _
      rw [e1, e2]
      exact mid
  -- the same FMM step
  have hexp : FMM.expand (fcfg goal) eikS ⟨u.g.nob, heap, u.stop⟩ x' = _ := e'
  rw [FMM.expand_eq] at hexp
  have h0 : FMM.popped (⟨u.g.nob, heap, u.stop⟩ : FMM.St (F64 R)) x' = ⟨(u.g.setState x' .frozen).nob, heap.erase x', u.stop⟩ := by
    unfold FMM.popped; rw [Grid.nob_setState]
  rw [h0] at hexp
  dsimp only [Grid.nob_shape] at hexp
  rw [hsh] at hexp
  by_cases hdead : Dead pts u.g.nob.state
  · -- only frozen cells are left in the queue
    have hxf : u.g.nob.state x' = .frozen := by
      rcases J.vinv.heapK x' hxh with h1 | h1 | h1
      · exact h1
      · exact absurd h1 (hdead.2 x')
      · exact hdead.1 x' h1
    have m1 := mk (Θ := Θ₀) (le_refl _) (Or.inl rfl) (J.vinv.fzle x' hxf)
    have m2 := DInput.FVMid.fold I hΔ P hwA hna (cfg := fcfg goal) rfl _ _ (nbrs_nodup I.X.fits hxN) (fun _ h => h) m1
    have hskip := FMM.foldl_skip (fcfg goal) eikS ((Shape.mk' dims).nbrs x') ⟨(u.g.setState x' .frozen).nob, heap.erase x', u.stop⟩ (by
      intro j hj
      cases ho : g.occ j with
      | true => right; rw [SameMap.occ_eq m1.map]; exact ho
      | false =>
        left
        show (u.g.setState x' .frozen).nob.state j = _
        rw [Grid.nob_setState, e2]
        dsimp only
        split
        · rfl
        · by_cases hjp : j ∈ pts
          · exact hdead.1 j hjp
          · rcases J.vinv.closed x' j hxf hj ho hjp with h1 | h1
            · exact h1
            · exact absurd h1 (hdead.2 j))
    rw [hskip] at hexp m2
    have hheap : heap.erase x' = heap' := by
      have := congrArg FMM.St.heap hexp
      exact this
    have hgr : (u.g.setState x' .frozen).nob = (expand goal eikS { u with q := u.q.top.1 } x').g.nob := by
      have := congrArg FMM.St.g hexp
      exact this
    rw [hheap] at m2
    have hst : (u.g.setState x' .frozen).nob.state = u.g.nob.state := by
      rw [Grid.nob_setState, e2]
      funext k; split
      · next hk => rw [hk, hxf]
      · rfl
    refine ⟨rem', heap', Θ₀, I', hc', by rw [← hgr]; exact m2.map, by rw [← hgr]; exact m2.good, by rw [← hgr]; exact m2.hz,
      by rw [← hgr]; exact m2.q.done I.X, by rw [← hgr]; exact m2.low, Or.inl ?_⟩
    rw [← hgr, hst]
    exact hdead
  · obtain ⟨τ₀, hτ0, hΘ0, Q⟩ := J.q.resolve_left hdead
    -- the first bucket after `top`
    classical
    let KK : Nat → ℝ := fun j => if hj : u.g.state j = .narrow then (Q.placed j hj).choose else 0
    have hK : ∀ j (hj : u.g.state j = .narrow), KK j = (Q.placed j hj).choose := fun j hj => dif_pos hj
    have hKv : ∀ j, u.g.state j = .narrow → (u.g.value j).1 = .fin (KK j) := by
      intro j hj; rw [hK j hj]; exact (Q.placed j hj).choose_spec.1
    let M : Finset Nat := (Finset.range dims.prod).filter (fun j => u.g.state j = .narrow)
    have hM : ∀ j, j ∈ M ↔ u.g.state j = .narrow := by
      intro j
      rw [Finset.mem_filter, Finset.mem_range]
      exact ⟨fun h => h.2, fun h => ⟨J.vinv.heapN j (J.vinv.nar j h).1, h⟩⟩
    have hP0 : UQ.Placed64 n (inc / n) (qerr A inc) (I.θ + 2 * I.β) M (fun e => (u.g.cells e).bucket) KK u.q.i0 τ₀ := by
      intro j hj
      have hj' := (hM j).1 hj
      rw [hK j hj']
      exact (Q.placed j hj').choose_spec.2
    have hmem : ∀ e ∈ M, e ∈ u.q.tab (u.g.cells e).bucket := by
      intro e he
      obtain ⟨h1, h2⟩ := I0.nar e ((hM e).1 he)
      apply List.count_pos_iff.1
      rw [h2 _ h1, if_pos rfl]; exact Nat.one_pos
    have hblt : ∀ e ∈ M, (u.g.cells e).bucket < n := fun e he => by rw [← Q.size]; exact (I0.nar e ((hM e).1 he)).1
    have htvK : ∀ j, u.g.state j = .narrow → tf u.g.nob j = (KK j : WithTop ℝ) := by
      intro j hj
      rw [tf_eq]
      show toT (u.g.value j).1 = _
      rw [hKv j hj]; rfl
    have hwide := K.wide
    have he0 := K.e0
    have huinc : 0 ≤ 9 * uu * inc := by positivity
    -- the beginning of the queue
    have adv : ∃ τ, u.q.settle.t0.1 = .fin τ ∧ τ₀ ≤ τ ∧
        UQ.Placed64 n (inc / n) (qerr A inc) (I.θ + 2 * I.β) M (fun e => (u.g.cells e).bucket) KK u.q.settle.i0 τ ∧
        (τ = τ₀ ∨ (rem = [] ∧ UQ.Placed64 n (inc / n) (qerr A inc) 0 M (fun e => (u.g.cells e).bucket) KK u.q.settle.i0 τ)) := by
      by_cases hne : rem = []
      · have hMne : M.Nonempty := by
          by_contra hcon
          rw [Finset.not_nonempty_iff_eq_empty] at hcon
          apply hdead
          refine ⟨hpr hne, fun j hj => ?_⟩
          have := (hM j).2 hj
          rw [hcon] at this; simp at this
        obtain ⟨d, hd1, hd2⟩ := Q.delta
        obtain ⟨τ, a1, a2, a3, a4⟩ := UQ.Placed64.advance K.pos K.inc1 K.inc2 K.A0 K.A2 K.e0 hMne (M := M) (bk := fun e => (u.g.cells e).bucket) (K := KK)
          (by
            intro y hy
            have := J.vinv.bnd y (KK y) (htvK y ((hM y).1 hy))
            linarith) (by unfold qerr at hwide; linarith) u.q.size u.q τ₀ d Q.size (by rw [← Q.size]; exact I0.wf.i0) hd1 hd2 Q.t0 hτ0 hblt hmem hP0
        refine ⟨τ, a1, a2, a3, ?_⟩
        rcases a4 with a4 | a4
        · exact Or.inl a4
        · exact Or.inr ⟨hne, a4⟩
      · rw [hrem hne]
        exact ⟨τ₀, Q.t0, le_refl _, hP0, Or.inl rfl⟩
    obtain ⟨τ, hτt, hτ, hP, hPs⟩ := adv
    have hΘ : Θ₀ ≤ τ - n * qerr A inc := by rw [hΘ0]; linarith
    have hor : τ - n * qerr A inc = Θ₀ ∨ ∀ k, k < dims.prod → u.g.nob.state k ≠ .frozen → ((τ - n * qerr A inc : ℝ) : WithTop ℝ) ≤ tf u.g.nob k := by
      rcases hPs with h1 | ⟨hne, h1⟩
      · left; rw [h1, hΘ0]
      · right
        intro j hjN hjf
        cases hst : u.g.state j with
        | frozen => exact absurd hst hjf
        | narrow =>
          rw [htvK j hst]
          have h2 := (h1 j ((hM j).2 hst)).1
          simp only [ite_self] at h2
          set a := (UQ.ahead n u.q.settle.i0 (u.g.cells j).bucket : ℝ) with ha
          have ha0 : 0 ≤ a := Nat.cast_nonneg _
          have h3 : 0 ≤ a * (inc / n) := mul_nonneg ha0 hδ.le
          have h4 : 0 ≤ a * qerr A inc := mul_nonneg ha0 hq0
          have : τ - n * qerr A inc ≤ KK j := by linarith
          exact_mod_cast this
        | opn =>
          have hjp : j ∉ pts := fun hp => by
            have := hpr hne j hp
            rw [hst] at this; cases this
          rw [J.vinv.opn j hst hjp]; exact le_top
    have hTx : tf u.g.nob x' ≤ ((τ - n * qerr A inc + (inc / n + 2 * (n * qerr A inc)) : ℝ) : WithTop ℝ) := by
      cases hst : u.g.state x' with
      | frozen =>
        refine le_trans (J.vinv.fzle x' hst) ?_
        have : Θ₀ + (inc / n + 2 * (n * qerr A inc)) ≤ τ - n * qerr A inc + (inc / n + 2 * (n * qerr A inc)) := by linarith
        exact_mod_cast this
      | narrow =>
        rw [htvK x' hst]
        have hm : x' ∈ u.q.tab u.q.settle.i0 := by
          have hS' : (u.q.settle.tab u.q.settle.i0).getLast? = some x' := hS
          rw [hk.1] at hS'
          exact List.mem_of_getLast? hS'
        have hilt : u.q.settle.i0 < u.q.size := by rw [← hk.2.1]; exact hW.i0
        have hb : u.q.settle.i0 = (u.g.cells x').bucket := by
          have := (I0.nar x' hst).2 _ hilt
          by_contra hne
          rw [if_neg hne] at this
          exact (List.count_pos_iff.2 hm).ne' this
        have h2 := (hP x' ((hM x').2 hst)).2
        dsimp only at h2
        rw [← hb, UQ.ahead_self (by rw [← Q.size]; exact hilt)] at h2
        simp only [Nat.cast_zero, zero_add, one_mul, sub_zero] at h2
        have : KK x' ≤ τ - n * qerr A inc + (inc / n + 2 * (n * qerr A inc)) := by linarith
        exact_mod_cast this
      | opn =>
        have hxc : x' ∈ u.q.content := by rw [J.cont]; exact hxh
        have hxr := I0.opn x' hxc hst
        have hxp' := (I0.remp x' hxr).1
        have h0 : tf u.g.nob x' = 0 := (J.vinv.ini x' hxp').1
        rw [h0]
        have : (0:ℝ) ≤ τ - n * qerr A inc + (inc / n + 2 * (n * qerr A inc)) := by linarith
        exact_mod_cast this
    have m1 := mk hΘ hor hTx
    have I1 : Inv g0 pts { u with q := u.q.top.1, g := u.g.setState x' .frozen } rem := by
      refine ⟨hW, I0.map.trans (sameMap_setState _ _ _), hsuf, ?_, ?_, ?_, ?_⟩
      · intro j hj
        refine ⟨(I0.remp j hj).1, ?_⟩
        simp only [Grid.state_setState]; split
        · simp
        · exact (I0.remp j hj).2
      · intro j hj hst
        simp only [Grid.state_setState] at hst
        split at hst
        · cases hst
        · exact I0.opn j (by rw [← UQ.settle_content]; exact hj) hst
      · intro j hj
        simp only [Grid.state_setState] at hj
        split at hj
        · cases hj
        · have := I0.nar j hj
          refine ⟨?_, ?_⟩
          · rw [bucket_setState]; show _ < u.q.settle.size; rw [hk.2.1]; exact this.1
          · intro b hb; rw [bucket_setState]; show List.count j (u.q.settle.tab b) = _; rw [hk.1]; exact this.2 b (by rw [← hk.2.1]; exact hb)
      · intro j hj
        refine ⟨by rw [Grid.value_setState]; exact (I0.start j hj).1, ?_⟩
        simp only [Grid.state_setState]; split
        · left; rfl
        · exact (I0.start j hj).2
    have hct : u.q.top.1.content = (heap : Multiset Nat) := (UQ.settle_content u.q).trans J.cont
    have hce : u.q.top.1.content = x' ::ₘ ((heap.erase x' : List Nat) : Multiset Nat) := by
      rw [hct, ← Multiset.coe_erase, Multiset.cons_erase (by exact hxh)]
    have hap' : ∀ j ∈ (Shape.mk' dims).nbrs x', rem ≠ [] → g0.occ j = false → j ∉ pts := by
      intro j hj hne ho
      refine hap x' (hxp hne) j ?_ ho
      have : g0.shape = Shape.mk' dims := hmap0.shape.symm.trans I.X.shape
      rw [this]; exact hj
    have Q1 : QInv64 n inc A (I.θ + 2 * I.β) { u with q := u.q.top.1, g := u.g.setState x' .frozen } τ := by
      refine ⟨hk.2.1.trans Q.size, ?_, ?_, hτt, ?_, ?_⟩
      · show u.q.settle.incMax.1 = _; rw [hk.2.2.2.2.1]; exact Q.incMax
      · show ∃ d : ℝ, u.q.settle.delta.1 = _ ∧ _; rw [hk.2.2.2.1]; exact Q.delta
      · show ∀ x : F64 R, ∀ r : ℝ, _ → _ → _ → u.q.settle.ub x = 0; rw [hk.2.2.2.2.2]; exact Q.ub
      intro j hj
      simp only [Grid.state_setState] at hj
      split at hj
      · cases hj
      · refine ⟨KK j, by rw [Grid.value_setState]; exact hKv j hj, ?_⟩
        rw [bucket_setState]
        exact hP j ((hM j).2 hj)
    obtain ⟨Q2, hS2, hp2, b2, e2', m2⟩ := QInv64.fold I K hΔ P hwA hna (goal := goal) (g0 := g0) ((Shape.mk' dims).nbrs x')
      { u with q := u.q.top.1, g := u.g.setState x' .frozen } (nbrs_nodup I.X.fits hxN) (fun _ h => h) I1 hS
      (by simp [Grid.state_setState]) hap' (heap.erase x') hce Q1 m1
    dsimp only at e2'
    rw [e2'] at hexp
    have hheap : hp2 = heap' := by
      have := congrArg FMM.St.heap hexp
      exact this
    have hgr : (List.foldl (UFMM.relax eikS) { u with q := u.q.top.1, g := u.g.setState x' .frozen } ((Shape.mk' dims).nbrs x')).g.nob =
        (expand goal eikS { u with q := u.q.top.1 } x').g.nob := by
      have := congrArg FMM.St.g hexp
      exact this
    rw [hheap, hgr] at m2
    refine ⟨rem', heap', τ - n * qerr A inc, I', hc', m2.map, m2.good, m2.hz, m2.q.done I.X, m2.low, Or.inr ⟨τ, by linarith, rfl, ?_⟩⟩
    -- the queue after `pop`
    have hw : (expand goal eikS { u with q := u.q.top.1 } x') =
        { (List.foldl (UFMM.relax eikS) { u with q := u.q.top.1, g := u.g.setState x' .frozen } ((Shape.mk' dims).nbrs x')) with
          q := (List.foldl (UFMM.relax eikS) { u with q := u.q.top.1, g := u.g.setState x' .frozen } ((Shape.mk' dims).nbrs x')).q.pop,
          stop := if x' = goal then true else (List.foldl (UFMM.relax eikS) { u with q := u.q.top.1, g := u.g.setState x' .frozen } ((Shape.mk' dims).nbrs x')).stop } := by
      unfold expand; dsimp only; rw [hsh]
    rw [hw]
    generalize List.foldl (UFMM.relax eikS) { u with q := u.q.top.1, g := u.g.setState x' .frozen } ((Shape.mk' dims).nbrs x') = ww at Q2 hS2
    have hpop : ww.q.pop.size = ww.q.size ∧ ww.q.pop.incMax = ww.q.incMax ∧ ww.q.pop.delta = ww.q.delta ∧ ww.q.pop.t0 = ww.q.t0 ∧ ww.q.pop.i0 = ww.q.i0 ∧
        ww.q.pop.ub = ww.q.ub := by
      unfold UQ.pop
      split
      · exact ⟨rfl, rfl, rfl, rfl, rfl, rfl⟩
      · rw [hS2.settle]; exact ⟨rfl, rfl, rfl, rfl, rfl, rfl⟩
    obtain ⟨p1, p2, p3, p4, p5, p6⟩ := hpop
    refine ⟨p1.trans Q2.size, by rw [p2]; exact Q2.incMax, by rw [p3]; exact Q2.delta, by rw [p4]; exact Q2.t0, by rw [p6]; exact Q2.ub, ?_⟩
    intro j hj
    dsimp only
    rw [p5]
    exact Q2.placed j hj

end UFMM
end FMV
