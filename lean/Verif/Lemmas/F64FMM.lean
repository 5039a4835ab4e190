import Verif.Lemmas.F64Grid
import Verif.Lemmas.ApproxFMM
/-! FMM in doubles satisfies the approximate invariants. -/
set_option linter.unusedSectionVars false
set_option linter.unusedVariables false
namespace FMV
open Spec Shape XR FMM
variable {R : Rounding}

namespace DInput
variable {dims : List Nat} {g : Grid (F64 R)} {h : ℝ} {v : Nat → ℝ} {pts : List Nat} {cm cM A : ℝ}

theorem accept {x y : F64 R} (hx : GoodT x.1) (hy : GoodT y.1) (hb : Arith.better x y = true) : toT x.1 < toT y.1 := by
  have h1 : Arith.lt x.1 y.1 = true := (F64.margin_laws R).margin_lt x y hb
  rw [← hx.ofT_toT, ← hy.ofT_toT, lt_ofT] at h1
  exact h1

theorem reject (I : DInput dims g h v pts cm cM A) {x y : F64 R} (hx : GoodT x.1) (hy : GoodT y.1) (hb : Arith.better x y = false)
    (hA : ∀ r : ℝ, toT x.1 = (r : WithTop ℝ) → r ≤ 3 * A) : toT y.1 ≤ toT x.1 + (I.β : WithTop ℝ) := by
  rcases hx with hx | ⟨r, h0, hx⟩
  · rw [hx]; simp
  · have hr : r ≤ 3 * A := hA r (by rw [hx]; rfl)
    have hcm := I.cm0
    have hA0 := I.Apos
    have hcA := I.cmA
    have hm := I.margin
    have he := eps_pos
    have hre : |r + eps| ≤ 4 * A := by rw [abs_of_nonneg (by linarith)]; linarith
    have hp1 : (2:ℝ)^(-1000:ℤ) ≤ 4 * A := by
      have : (2:ℝ)^(-1000:ℤ) ≤ (2:ℝ)^(-52:ℤ) := zpow_le_zpow_right₀ (by norm_num) (by norm_num)
      have h2 : (2:ℝ)^(-52:ℤ) ≤ eps := by unfold XR.eps; rw [zpow_neg]; norm_num
      linarith
    have hp2 : 4 * A ≤ (2:ℝ)^(1000:ℤ) := by
      have h3 := I.A2
      have : (4:ℝ) * (2:ℝ)^(300:ℤ) = (2:ℝ)^(302:ℤ) := by
        rw [show (4:ℝ) = (2:ℝ)^(2:ℤ) by norm_num, ← zpow_add₀ (by norm_num)]; norm_num
      have h4 : (2:ℝ)^(302:ℤ) ≤ (2:ℝ)^(1000:ℤ) := zpow_le_zpow_right₀ (by norm_num) (by norm_num)
      calc 4 * A ≤ 4 * (2:ℝ)^(300:ℤ) := mul_le_mul_of_nonneg_left h3 (by norm_num)
        _ = (2:ℝ)^(302:ℤ) := this
        _ ≤ _ := h4
    obtain ⟨s, hs, hse⟩ := rd_err R hre hp1 hp2
    have hadd : (Arith.add x (Arith.margin : F64 R)).1 = fin s := by
      show (F64.rnd R (XR.add x.1 (fin eps))).1 = _
      rw [hx]; exact hs
    have hnlt : Arith.lt (fin s) y.1 = false := by
      rw [← hadd]; exact hb
    rw [hx]
    have hu := I.uA_le
    have hse' := abs_le.1 hse
    have hsb : s ≤ r + I.β := by
      unfold β
      have : uu * (4 * A) ≤ I.e := by
        have : 0 ≤ uu * A := by have := uu_pos; positivity
        nlinarith
      linarith
    rcases hy with hy | ⟨t, ht0, hy⟩
    · rw [hy] at hnlt; simp [Arith.lt, XR.lt] at hnlt
    · rw [hy] at hnlt ⊢
      have : t ≤ s := by simpa [Arith.lt, XR.lt] using hnlt
      show (t : WithTop ℝ) ≤ (r : WithTop ℝ) + (I.β : WithTop ℝ)
      have h5 : t ≤ r + I.β := by linarith
      exact_mod_cast h5

/-- a proposed time is at most `3A` -/
theorem eik_le (I : DInput dims g h v pts cm cM A) {g' : Grid (F64 R)} (hA : ∀ i (r : ℝ), tf g' i = (r : WithTop ℝ) → r ≤ A) {i : Nat}
    (hi : i < dims.prod) (ho : g.occ i = false) {x : WithTop ℝ}
    (hx : Apr (h / v i) I.θ I.β (tf g' i) (mins (Shape.mk' dims) (tf g') i) x) : ∀ r : ℝ, x = (r : WithTop ℝ) → r ≤ 3 * A := by
  intro r hr
  have hex : ∃ t : ℝ, (t : WithTop ℝ) ∈ mins (Shape.mk' dims) (tf g') i ∧ (t : WithTop ℝ) < tf g' i := by
    by_contra hcon
    push Not at hcon
    have := hx.top (by
      intro m hm
      cases m with
      | top => exact Or.inl rfl
      | coe t => exact Or.inr (hcon t hm))
    rw [hr] at this
    exact WithTop.coe_ne_top this
  obtain ⟨t, h1, h2⟩ := hex
  have h3 := hx.near t h1 h2
  rw [hr] at h3
  have h4 : r ≤ t + (h / v i + I.β) := by exact_mod_cast h3
  obtain ⟨a, _, ha⟩ := XInput.mem_mins h1 WithTop.coe_ne_top
  have h5 := hA a t ha.symm
  have h6 := I.hi i hi ho
  have h7 := I.cA
  have h8 := I.β_small
  have h9 := I.cmA
  have := I.cm0
  have := I.β_pos
  linarith

theorem total64 {g' : Grid (F64 R)} (hz : ∀ i, ((g'.cells i).hValue).1 = fin 0) (hg : GoodG (gridX g')) (i : Nat) : ((g'.cells i).total).1 = (g'.value i).1 := by
  unfold Cell.total
  show (F64.rnd R (XR.add (g'.value i).1 ((g'.cells i).hValue).1)).1 = _
  rw [hz]
  rcases hg i with h1 | ⟨r, _, h1⟩
  · rw [gridX_value] at h1; rw [h1]; rfl
  · rw [gridX_value] at h1; rw [h1]
    show R.rd (r + 0) = _
    rw [add_zero, R.exact r ((g'.value i).2 r h1)]

theorem tf_setValue (g : Grid (F64 R)) (j : Nat) (x : F64 R) : tf (g.setValue j x) = fun k => if k = j then toT x.1 else tf g k := by
  funext k
  unfold tf tv
  rw [gridX_value, Grid.value_setValue]
  split
  · rfl
  · rfl

theorem good_setValue {g : Grid (F64 R)} (hg : GoodG (gridX g)) {j : Nat} {x : F64 R} (hx : GoodT x.1) : GoodG (gridX (g.setValue j x)) := by
  intro k
  rw [gridX_value, Grid.value_setValue]
  split
  · exact hx
  · exact hg k

structure FInv (I : DInput dims g h v pts cm cM A) (w : ℝ) (L : Nat) (s : St (F64 R)) : Prop where
  map : SameMap g s.g
  good : GoodG (gridX s.g)
  hz : ∀ i, ((s.g.cells i).hValue).1 = fin 0
  q : I.X.QInv I.θ I.β w L (tf s.g) s.g.state s.heap

structure FMid (I : DInput dims g h v pts cm cM A) (w : ℝ) (L : Nat) (x : Nat) (todo : List Nat) (s : St (F64 R)) : Prop where
  map : SameMap g s.g
  good : GoodG (gridX s.g)
  hz : ∀ i, ((s.g.cells i).hValue).1 = fin 0
  q : I.X.QMid I.θ I.β w L x todo (tf s.g) s.g.state s.heap

theorem hz_setValue {g : Grid (F64 R)} (hz : ∀ i, ((g.cells i).hValue).1 = fin 0) (j : Nat) (t : F64 R) :
    ∀ i, (((g.setValue j t).cells i).hValue).1 = fin 0 := by
  intro i; unfold Grid.setValue; rw [Grid.modify_cells]; split <;> exact hz i
theorem hz_setState {g : Grid (F64 R)} (hz : ∀ i, ((g.cells i).hValue).1 = fin 0) (j : Nat) (t) :
    ∀ i, (((g.setState j t).cells i).hValue).1 = fin 0 := by
  intro i; unfold Grid.setState; rw [Grid.modify_cells]; split <;> exact hz i

theorem FMid.relax (I : DInput dims g h v pts cm cM A) {w : ℝ} {L : Nat} (P : I.X.Par I.θ I.β w L) (hwA : w * (L + 1) ≤ A) (hna : I.X.NonAdj) {cfg : Cfg (F64 R)}
    (hcfg : cfg.heur = .none) {x j : Nat} {rest : List Nat} {s : St (F64 R)} (m : I.FMid w L x (j :: rest) s) (hj : j ∈ (Shape.mk' dims).nbrs x)
    (hjr : j ∉ rest) : I.FMid w L x rest (FMM.relax cfg eikS s j) := by
  have hjN : j < dims.prod := FMM.nbr_lt I.X.fits (m.q.fzN x m.q.fx) hj
  have hsm := m.map.trans (relax_sameMap cfg eikS s j)
  have hheur : ∀ (g' : Grid (F64 R)) i, applyHeur cfg g' i = g' := by
    intro g' i; unfold applyHeur; rw [hcfg]
  have hocc : s.g.occ j = g.occ j := SameMap.occ_eq m.map j
  have hA : ∀ i (r : ℝ), tf s.g i = (r : WithTop ℝ) → r ≤ A := fun i r hr => le_trans (m.q.bnd i r hr) hwA
  rcases relax_cases cfg eikS s j with ⟨hsk, e⟩ | ⟨ho, hn, hb, e⟩ | ⟨ho, hn, hb, e⟩ | ⟨ho, hn, e⟩
  · rw [e] at hsm ⊢
    exact ⟨hsm, m.good, m.hz, m.q.skip I.X (by rw [gridX_occ, ← hocc]; exact hsk)⟩
  · rw [hocc] at ho
    obtain ⟨hgd, hap⟩ := I.eik m.map m.good hA hjN ho
    rw [e] at hsm ⊢
    simp only [hheur] at hsm ⊢
    refine ⟨hsm, good_setValue (g := s.g.setScratch _) m.good hgd, hz_setValue (g := s.g.setScratch _) m.hz _ _, ?_⟩
    show I.X.QMid _ _ _ _ x rest (tf ((s.g.setScratch _).setValue j _)) _ _
    rw [tf_setValue]
    refine m.q.update I.X hna P hj hjr ho (by rw [hn]; simp) ?_ ?_ hap ?_ (Or.inl ⟨?_, Or.inr (accept hgd (m.good j) hb)⟩)
    · intro k; simp only [Grid.state_setValue, Grid.state_setScratch]
      split
      · next hk => rw [hk, hn]
      · rfl
    · intro y; dsimp only; split
      · rw [List.mem_cons]; tauto
      · constructor
        · exact Or.inl
        · rintro (h1 | rfl)
          · exact h1
          · exact (m.q.nar y hn).1
    · intro k hk; rw [if_neg hk]; rfl
    · rw [if_pos rfl]
  · rw [hocc] at ho
    obtain ⟨hgd, hap⟩ := I.eik m.map m.good hA hjN ho
    rw [e] at hsm ⊢
    simp only [hheur] at hsm ⊢
    refine ⟨hsm, m.good, m.hz, ?_⟩
    refine m.q.update I.X hna P hj hjr ho (by rw [hn]; simp) ?_ ?_ hap (fun k _ => rfl)
      (Or.inr ⟨hn, rfl, I.reject hgd (m.good j) hb (I.eik_le hA hjN ho hap)⟩)
    · intro k; simp only [Grid.state_setScratch]
      split
      · next hk => rw [hk, hn]
      · rfl
    · intro y; constructor
      · exact Or.inl
      · rintro (h1 | rfl)
        · exact h1
        · exact (m.q.nar y hn).1
  · rw [hocc] at ho
    obtain ⟨hgd, hap⟩ := I.eik m.map m.good hA hjN ho
    rw [e] at hsm ⊢
    simp only [hheur] at hsm ⊢
    have hgs : GoodG (gridX ((s.g.setScratch (eikS s.g j).2).setState j .narrow)) := by
      intro k; simp only [gridX_value, Grid.value_setState, Grid.value_setScratch]; exact m.good k
    refine ⟨hsm, good_setValue hgs hgd, hz_setValue (hz_setState (g := s.g.setScratch _) m.hz _ _) _ _, ?_⟩
    show I.X.QMid _ _ _ _ x rest (tf (((s.g.setScratch _).setState j _).setValue j _)) _ _
    rw [tf_setValue]
    refine m.q.update I.X hna P hj hjr ho (by rw [hn]; simp) ?_ ?_ hap ?_ (Or.inl ⟨?_, Or.inl hn⟩)
    · intro k; simp only [Grid.state_setValue, Grid.state_setState, Grid.state_setScratch]
    · intro y; dsimp only; rw [List.mem_cons]; tauto
    · intro k hk; rw [if_neg hk]; unfold tf tv; simp
    · rw [if_pos rfl]

theorem FMid.fold (I : DInput dims g h v pts cm cM A) {w : ℝ} {L : Nat} (P : I.X.Par I.θ I.β w L) (hwA : w * (L + 1) ≤ A) (hna : I.X.NonAdj) {cfg : Cfg (F64 R)}
    (hcfg : cfg.heur = .none) {x : Nat} : ∀ (l : List Nat) (s : St (F64 R)), l.Nodup → (∀ j ∈ l, j ∈ (Shape.mk' dims).nbrs x) → I.FMid w L x l s →
    I.FMid w L x [] (l.foldl (FMM.relax cfg eikS) s) := by
  intro l
  induction l with
  | nil => intro s _ _ m; exact m
  | cons j l ih =>
    intro s hnd hl m
    rw [List.nodup_cons] at hnd
    rw [List.foldl_cons]
    exact ih _ hnd.2 (fun k hk => hl k (by simp [hk])) (FMid.relax I P hwA hna hcfg m (hl j (by simp)) hnd.1)

theorem FInv.step (I : DInput dims g h v pts cm cM A) {w : ℝ} {L : Nat} (P : I.X.Par I.θ I.β w L) (hwA : w * (L + 1) ≤ A) (hna : I.X.NonAdj) {cfg : Cfg (F64 R)}
    (hcfg : cfg.heur = .none) {s t : St (F64 R)} (J : I.FInv w L s) (hst : StepMin cfg s t) : I.FInv w L t := by
  obtain ⟨_, x, ⟨hx, hmin⟩, rfl⟩ := hst
  have hmin' : ∀ y ∈ s.heap, tf s.g x ≤ tf s.g y := by
    intro y hy
    have h1 : Arith.lt ((s.g.cells y).total).1 ((s.g.cells x).total).1 = false := hmin y hy
    rw [total64 J.hz J.good, total64 J.hz J.good] at h1
    by_contra hlt
    have h2 := (lt_ofT (tf s.g y) (tf s.g x)).2 (not_le.1 hlt)
    unfold tf tv at h2
    rw [(J.good y).ofT_toT, (J.good x).ofT_toT, gridX_value, gridX_value, h1] at h2
    cases h2
  have m := J.q.pop I.X P hx hmin'
  have m0 : I.FMid w L x ((Shape.mk' dims).nbrs x) (popped s x) := by
    refine ⟨J.map.trans (popped_sameMap s x), ?_, hz_setState J.hz _ _, ?_⟩
    · intro k; simp only [popped, gridX_value, Grid.value_setState]; exact J.good k
    · have e1 : tf (popped s x).g = tf s.g := by funext k; unfold tf tv; simp [popped]
      have e2 : (popped s x).g.state = fun k => if k = x then .frozen else s.g.state k := by
        funext k; simp [popped, Grid.state_setState]
      rw [e1, e2]
      exact m
  have m1 := FMid.fold I P hwA hna hcfg _ _ (nbrs_nodup I.X.fits (J.q.heapN x hx)) (fun _ h => h) m0
  have hsh : s.g.shape = Shape.mk' dims := J.map.shape.trans I.X.shape
  rw [← hsh] at m1
  rw [expand_eq]
  exact ⟨m1.map, m1.good, m1.hz, m1.q.done I.X⟩

theorem FInv.start (I : DInput dims g h v pts cm cM A) {w : ℝ} {L : Nat} (P : I.X.Par I.θ I.β w L) (hfr : Fresh g) {cfg : Cfg (F64 R)}
    (hcfg : cfg.heur = .none) : I.FInv w L (FMM.init cfg g [] pts) := by
  have hv : ∀ k, ((FMM.init cfg g [] pts).g.value k).1 = if k ∈ pts then fin 0 else pinf := by
    intro k; rw [init_value, hfr.value]; split <;> rfl
  have hT : ∀ k, tf (FMM.init cfg g [] pts).g k = if k ∈ pts then 0 else ⊤ := by
    intro k; unfold tf tv; rw [gridX_value, hv]; split <;> rfl
  have hS : ∀ k, (FMM.init cfg g [] pts).g.state k = .opn := by
    intro k; rw [init_state]; exact hfr.state k
  have hH : ∀ k, k ∈ (FMM.init cfg g [] pts).heap ↔ k ∈ pts := by
    intro k; rw [init_heap]; simp
  refine ⟨init_sameMap _ _ _ _, ?_, ?_, ?_⟩
  · intro k; rw [gridX_value, hv]; split
    · exact Or.inr ⟨0, le_refl _, rfl⟩
    · exact Or.inl rfl
  · unfold FMM.init
    refine foldl_inv (I := fun s : St (F64 R) => ∀ i, ((s.g.cells i).hValue).1 = fin 0) _ _ _ (fun i => by rw [hfr.hValue i]; rfl) ?_
    intro s i _ hs
    unfold initPoint applyHeur
    rw [hcfg]
    exact hz_setValue hs _ _
  · exact
    { nn := by intro k; rw [hT]; split <;> simp
      heapN := fun y hy => I.X.inside y ((hH y).1 hy)
      fzN := by intro k hk; rw [hS] at hk; cases hk
      finF := by intro k hk; rw [hS] at hk; cases hk
      finH := by intro y hy; rw [hT, if_pos ((hH y).1 hy)]; simp
      heapK := fun y hy => Or.inr (Or.inr ((hH y).1 hy))
      nar := by intro k hk; rw [hS] at hk; cases hk
      opn := by intro k _ hk; rw [hT, if_neg hk]
      ini := by intro k hk; rw [hT, if_pos hk]; exact ⟨rfl, Or.inr ((hH k).2 hk)⟩
      pos := by intro k hk; rw [hT, if_neg hk]; simp
      bnd := by
        intro k r hk
        rw [hT] at hk
        split at hk
        · have : r = 0 := by exact_mod_cast hk.symm
          have h1 := P.w0
          rw [this]; positivity
        · exact absurd hk (by simp)
      rch := by
        intro k hk
        rw [hS] at hk
        rcases hk with h1 | h1
        · cases h1
        · exact ⟨0, .start ((hH k).1 h1)⟩
      dist := by intro i d hi; rw [hS] at hi; cases hi
      i1 := by intro i k hi; rw [hS] at hi; cases hi
      i2f := by intro k hk; rw [hS] at hk; cases hk
      i3 := by intro i k hi; rw [hS] at hi; cases hi
      closed := by intro i j hi; rw [hS] at hi; cases hi
      i2n := by intro k hk; rw [hS] at hk; cases hk
      n1 := by intro k hk; rw [hS] at hk; cases hk }

theorem FInv.reach (I : DInput dims g h v pts cm cM A) {w : ℝ} {L : Nat} (P : I.X.Par I.θ I.β w L) (hwA : w * (L + 1) ≤ A) (hna : I.X.NonAdj) (hfr : Fresh g)
    {cfg : Cfg (F64 R)} (hcfg : cfg.heur = .none) {n : Nat} {s : St (F64 R)} (hs : Steps (StepMin cfg) n (FMM.init cfg g [] pts) s) : I.FInv w L s :=
  Steps.inv (I := fun s => I.FInv w L s) (r := StepMin cfg) (fun _ _ J hst => FInv.step I P hwA hna hcfg J hst) hs (FInv.start I P hfr hcfg)

end DInput
end FMV
