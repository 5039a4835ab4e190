import Verif.Props.StarGoal
import Verif.Props.LowF64
import Verif.Props.FM2Reach
import Verif.Props.Heuristic
import Verif.Props.GoalF64
/-! C107: FMM* and SFMM* in doubles (the times they leave at the goal). -/
set_option linter.unusedSectionVars false
set_option linter.unusedVariables false
namespace FMV
open Spec Shape XR FMM F64
variable {R : Rounding}

namespace Star64
variable {dims : List Nat} {g : Grid (F64 R)} {h : ℝ} {v : Nat → ℝ} {p : Nat} {cm cM A : ℝ}

/-- neighbours of `x` that wait in `todo` may still lack an update from `x` -/
structure AStar (I : DInput dims g h v [p] cm cM A) (x : Nat) (todo : List Nat) (s : St (F64 R)) : Prop where
  fzN : ∀ y, s.g.state y = .frozen → y < dims.prod
  pf : s.g.state p = .frozen
  p0 : tf s.g p = 0
  opn : ∀ k, s.g.state k = .opn → tf s.g k = ⊤
  nar : ∀ k, s.g.state k = .narrow → k ∈ s.heap
  nb : ∀ z y, s.g.state z = .frozen → y ∈ (Shape.mk' dims).nbrs z → g.occ y = false → s.g.state y ≠ .frozen →
    (z = x ∧ y ∈ todo) ∨ (s.g.state y = .narrow ∧ tf s.g y ≤ tf s.g z + ((h / v y + 2 * I.β : ℝ) : WithTop ℝ))

theorem AStar.relax (I : DInput dims g h v [p] cm cM A) {w : ℝ} (w0 : 0 ≤ w) (hw : ∀ i, i < dims.prod → g.occ i = false → h / v i + I.β ≤ w)
    (hwA : w * dims.prod ≤ A) {cfg : Cfg (F64 R)} {x j : Nat} {rest : List Nat} {s : St (F64 R)} (J : I.MInv w s) (S : AStar I x (j :: rest) s)
    (hj : j < dims.prod) : AStar I x rest (FMM.relax cfg eikS s j) := by
  have hcA : w * (DInput.touched dims s.g).card ≤ A := le_trans (mul_le_mul_of_nonneg_left (by exact_mod_cast DInput.card_touched_le s.g) w0) hwA
  have hocc : s.g.occ j = g.occ j := SameMap.occ_eq J.l.map j
  have hst := relax_state cfg eikS s j
  have hfz : ∀ k, (FMM.relax cfg eikS s j).g.state k = .frozen ↔ s.g.state k = .frozen := by
    intro k; rw [hst]; split
    · next hk => rw [hk.1, hk.2.1]; simp
    · rfl
  have hfv : ∀ k, s.g.state k = .frozen → tf (FMM.relax cfg eikS s j).g k = tf s.g k := by
    intro k hk; rw [tf_eq, tf_eq]; unfold Grid.value; rw [relax_cells_protected (Or.inl hk)]
  have hne : ∀ k, k ≠ j → tf (FMM.relax cfg eikS s j).g k = tf s.g k ∧ (FMM.relax cfg eikS s j).g.state k = s.g.state k := by
    intro k hk; rw [tf_eq, tf_eq]; unfold Grid.value Grid.state; rw [relax_cells_ne hk]; exact ⟨rfl, rfl⟩
  have hβ := I.β_pos
  have hnb : ∀ z, s.g.state z = .frozen → j ∈ (Shape.mk' dims).nbrs z → g.occ j = false → s.g.state j ≠ .frozen →
      (FMM.relax cfg eikS s j).g.state j = .narrow ∧ j ∈ (FMM.relax cfg eikS s j).heap ∧
        tf (FMM.relax cfg eikS s j).g j ≤ tf s.g z + ((h / v j + 2 * I.β : ℝ) : WithTop ℝ) := by
    intro z hz hjz ho hnf
    have hzj : z ∈ (Shape.mk' dims).nbrs j := nbrs_symm I.X.fits (S.fzN z hz) hjz
    obtain ⟨m, hm, hmz⟩ := XInput.mins_le (T := tf s.g) hzj
    have hc : 0 < h / v j := I.X.cpos hj ho
    obtain ⟨hgd, hap⟩ := I.eik J.l.map J.l.good (J.l.le I hcA) hj ho
    have hbound : tf s.g z < tf s.g j → toT (eikS s.g j).1.1 ≤ tf s.g z + ((h / v j + I.β : ℝ) : WithTop ℝ) := by
      intro hlt
      obtain ⟨t, ht⟩ := WithTop.ne_top_iff_exists.1 (ne_top_of_lt (lt_of_le_of_lt hmz hlt))
      rw [← ht] at hm hmz
      refine (hap.near t hm (lt_of_le_of_lt hmz hlt)).trans ?_
      rw [WithTop.coe_add]
      gcongr
    have hle : (tf s.g z + ((h / v j + I.β : ℝ) : WithTop ℝ)) ≤ tf s.g z + ((h / v j + 2 * I.β : ℝ) : WithTop ℝ) := by
      have : ((h / v j + I.β : ℝ) : WithTop ℝ) ≤ ((h / v j + 2 * I.β : ℝ) : WithTop ℝ) := by exact_mod_cast (by linarith : h / v j + I.β ≤ h / v j + 2 * I.β)
      gcongr
    have hle0 : tf s.g z ≤ tf s.g z + ((h / v j + 2 * I.β : ℝ) : WithTop ℝ) := by
      have : (0 : WithTop ℝ) ≤ ((h / v j + 2 * I.β : ℝ) : WithTop ℝ) := by exact_mod_cast (by linarith : 0 ≤ h / v j + 2 * I.β)
      exact le_add_of_nonneg_right this
    have hA3 : ∀ r : ℝ, toT (eikS s.g j).1.1 = (r : WithTop ℝ) → r ≤ 3 * A := by
      intro r hr
      have := I.eik_le (J.l.le I hcA) hj ho hap r hr
      exact this
    rcases relax_cases cfg eikS s j with ⟨hh, e⟩ | ⟨_, hn, hb, e⟩ | ⟨_, hn, hb, e⟩ | ⟨_, hn, e⟩
    · rcases hh with hh | hh
      · exact absurd hh hnf
      · rw [hocc, ho] at hh; cases hh
    · have hv : tf (FMM.relax cfg eikS s j).g j = toT (eikS s.g j).1.1 := by
        rw [e, tf_eq]; dsimp only; rw [Grid.value_setValue, if_pos rfl]
      refine ⟨by rw [hst, if_neg (by rintro ⟨_, h1, _⟩; rw [hn] at h1; cases h1)]; exact hn, relax_heap_sub (S.nar j hn), ?_⟩
      rw [hv]
      by_cases hlt : tf s.g z < tf s.g j
      · exact (hbound hlt).trans hle
      · have := DInput.accept hgd (J.l.good j) hb
        exact (this.le.trans (not_lt.1 hlt)).trans hle0
    · have hv : tf (FMM.relax cfg eikS s j).g j = tf s.g j := by
        rw [e, tf_eq]; dsimp only; rw [applyHeur_value]; rfl
      refine ⟨by rw [hst, if_neg (by rintro ⟨_, h1, _⟩; rw [hn] at h1; cases h1)]; exact hn, relax_heap_sub (S.nar j hn), ?_⟩
      rw [hv]
      by_cases hlt : tf s.g z < tf s.g j
      · have h1 : tf s.g j ≤ toT (eikS s.g j).1.1 + (I.β : WithTop ℝ) := I.reject hgd (J.l.good j) hb hA3
        refine h1.trans ?_
        calc _ ≤ tf s.g z + ((h / v j + I.β : ℝ) : WithTop ℝ) + (I.β : WithTop ℝ) := by gcongr; exact hbound hlt
          _ = _ := by rw [add_assoc, ← WithTop.coe_add]; congr 2; ring
      · exact (not_lt.1 hlt).trans hle0
    · have hv : tf (FMM.relax cfg eikS s j).g j = toT (eikS s.g j).1.1 := by
        rw [e, tf_eq]; dsimp only; rw [Grid.value_setValue, if_pos rfl]
      refine ⟨by rw [hst, if_pos ⟨rfl, hn, by rw [hocc]; exact ho⟩], by rw [e]; exact List.mem_cons_self, ?_⟩
      rw [hv]
      have ht := S.opn j hn
      by_cases hzt : tf s.g z = ⊤
      · rw [hzt]; exact le_top
      · exact (hbound (by rw [ht]; exact lt_top_iff_ne_top.2 hzt)).trans hle
  refine ⟨fun y hy => S.fzN y ((hfz y).1 hy), (hfz p).2 S.pf, (hfv p S.pf).trans S.p0, ?_, ?_, ?_⟩
  · intro k hk
    by_cases hkj : k = j
    · subst hkj
      rw [hst] at hk
      split at hk
      · cases hk
      · next hn =>
        have hko : g.occ k = true := by
          rw [← hocc]; by_contra hcon
          exact hn ⟨rfl, hk, by simpa using hcon⟩
        rw [tf_eq]; unfold Grid.value
        rw [relax_cells_protected (Or.inr (by rw [hocc]; exact hko))]
        exact S.opn k hk
    · rw [(hne k hkj).2] at hk; rw [(hne k hkj).1]; exact S.opn k hk
  · intro k hk
    by_cases hkj : k = j
    · subst hkj
      rcases relax_cases cfg eikS s k with ⟨hh, e⟩ | ⟨_, hn, hb, e⟩ | ⟨_, hn, hb, e⟩ | ⟨_, hn, e⟩
      · rw [e] at hk ⊢; exact S.nar k hk
      · exact relax_heap_sub (S.nar k hn)
      · exact relax_heap_sub (S.nar k hn)
      · rw [e]; exact List.mem_cons_self
    · rw [(hne k hkj).2] at hk; exact relax_heap_sub (S.nar k hk)
  · intro z y hz hy ho hnf
    rw [hfz] at hz
    rw [Ne, hfz] at hnf
    by_cases hyj : y = j
    · subst hyj
      have := hnb z hz hy ho hnf
      right; exact ⟨this.1, by rw [hfv z hz]; exact this.2.2⟩
    · rcases S.nb z y hz hy ho hnf with ⟨h1, h2⟩ | ⟨h1, h2⟩
      · exact Or.inl ⟨h1, (List.mem_cons.1 h2).resolve_left hyj⟩
      · right; rw [(hne y hyj).2, (hne y hyj).1, hfv z hz]; exact ⟨h1, h2⟩

theorem AStar.fold (I : DInput dims g h v [p] cm cM A) {w : ℝ} (w0 : 0 ≤ w) (hw : ∀ i, i < dims.prod → g.occ i = false → h / v i + I.β ≤ w)
    (hwA : w * dims.prod ≤ A) {cfg : Cfg (F64 R)} {x : Nat} : ∀ (l : List Nat) (s : St (F64 R)), (∀ j ∈ l, j < dims.prod) → I.MInv w s → AStar I x l s →
    AStar I x [] (l.foldl (FMM.relax cfg eikS) s)
  | [], _, _, _, S => S
  | j :: l, s, hl, J, S => AStar.fold I w0 hw hwA l _ (fun k hk => hl k (by simp [hk])) (J.relax I w0 hw hwA (hl j (by simp)))
      (S.relax I w0 hw hwA J (hl j (by simp)))
/-- the heuristic as a real number -/
def IsHeur (cfg : Cfg (F64 R)) (g : Grid (F64 R)) (dims : List Nat) (p : Nat) (H : Nat → ℝ) : Prop :=
  ∀ i, i < dims.prod → (i = p ∨ g.occ i = false) → (heurOf cfg g i).1 = fin (H i)

/-- what one move may lose: three comparison margins and local errors, and the error of the heuristic -/
noncomputable def loss (I : DInput dims g h v [p] cm cM A) (η : ℝ) : ℝ := 3 * I.β + η

/-- all frozen cells have the time of a best route, up to the loss per move -/
structure AGoal (I : DInput dims g h v [p] cm cM A) (η : ℝ) (s : St (F64 R)) : Prop where
  main : (s.heap = [p] ∧ tf s.g p = 0 ∧ (∀ k, s.g.state k = .opn) ∧ (∀ k, k ≠ p → tf s.g k = ⊤)) ∨ ∃ x, AStar I x [] s
  fr : ∀ x t n, s.g.state x = .frozen → Route dims (Shape.mk' dims).idx2coord (fun i => g.occ i = false) (fun i => h / v i) p x t n →
    tf s.g x ≤ ((t + (n + 1) * loss I η : ℝ) : WithTop ℝ)
  free : ∀ y, (y ∈ s.heap ∨ s.g.state y = .frozen) → y = p ∨ g.occ y = false

/-- on the way to any cell there is a queued cell whose total value does not exceed what the route promises -/
theorem AGoal.front (I : DInput dims g h v [p] cm cM A) {η : ℝ} (hη : 0 ≤ η) {s : St (F64 R)} (G : AGoal I η s) {H : Nat → ℝ}
    (hcons : Consistent dims (Shape.mk' dims).idx2coord (fun i => g.occ i = false) (fun i => h / v i + η) p H) {y n : Nat} {t : ℝ}
    (r : Route dims (Shape.mk' dims).idx2coord (fun i => g.occ i = false) (fun i => h / v i) p y t n) :
    s.g.state y = .frozen ∨ ∃ z ∈ s.heap, ∃ a : ℝ, tf s.g z = (a : WithTop ℝ) ∧ a + H z ≤ t + n * loss I η + 2 * I.β + H y := by
  have hp : p < dims.prod := I.X.inside p (by simp)
  have hβ := I.β_pos
  have hL : η ≤ loss I η ∧ 0 ≤ loss I η := by unfold loss; constructor <;> linarith
  rcases G.main with ⟨hh, h0, ho, ht⟩ | ⟨x, S⟩
  · right
    refine ⟨p, by rw [hh]; simp, 0, h0, ?_⟩
    have : ∀ {y t n}, Route dims (Shape.mk' dims).idx2coord (fun i => g.occ i = false) (fun i => h / v i) p y t n →
        0 + H p ≤ t + n * loss I η + 2 * I.β + H y := by
      intro y t n r
      induction r with
      | start => simp; linarith
      | move r h1 h2 h3 ih =>
        have := hcons _ _ (route_lt hp r).1 h1 (route_lt hp r).2 h2 h3
        push_cast; linarith
    exact this r
  · induction r with
    | start => exact Or.inl S.pf
    | @move i j t n r h1 h2 h3 ih =>
      by_cases hjf : s.g.state j = .frozen
      · exact Or.inl hjf
      right
      rcases ih with hi | ⟨z, hz, a, ha, hle⟩
      · have hj : j ∈ (Shape.mk' dims).nbrs i := (axisAdjacent_iff I.X.fits (route_lt hp r).1).2 ⟨h1, h3⟩
        rcases S.nb i j hi hj h2 hjf with ⟨_, hc⟩ | ⟨hn, hle⟩
        · simp at hc
        · have hb := G.fr i t n hi r
          have hjle : tf s.g j ≤ ((t + h / v j + (n + 1 : Nat) * loss I η + 2 * I.β : ℝ) : WithTop ℝ) := by
            refine hle.trans ?_
            calc _ ≤ ((t + (n + 1) * loss I η : ℝ) : WithTop ℝ) + ((h / v j + 2 * I.β : ℝ) : WithTop ℝ) := by gcongr
              _ = _ := by rw [← WithTop.coe_add]; congr 1; push_cast; ring
          cases hjv : tf s.g j with
          | top => rw [hjv] at hjle; exact absurd hjle (not_le.2 (WithTop.coe_lt_top _))
          | coe a =>
            rw [hjv] at hjle
            have : a ≤ t + h / v j + (n + 1 : Nat) * loss I η + 2 * I.β := WithTop.coe_le_coe.1 hjle
            exact ⟨j, S.nar j hn, a, hjv, by linarith⟩
      · refine ⟨z, hz, a, ha, ?_⟩
        have := hcons _ _ (route_lt hp r).1 h1 (route_lt hp r).2 h2 h3
        push_cast; linarith

/-- keys in order: their exact values are in order up to the rounding of the sums -/
theorem key_le (I : DInput dims g h v [p] cm cM A) {x z k l : F64 R} {a b H K : ℝ} (ex : x.1 = fin b) (ez : z.1 = fin a) (ek : k.1 = fin K) (el : l.1 = fin H)
    (ha : 0 ≤ a ∧ a ≤ A) (hb : 0 ≤ b ∧ b ≤ A) (hH : 0 ≤ H ∧ H ≤ A) (hK : 0 ≤ K ∧ K ≤ A)
    (hlt : Arith.lt (Arith.add z l) (Arith.add x k) = false) : b + K ≤ a + H + I.β := by
  have hA0 := I.Apos
  have hm := I.margin
  have he := eps_pos
  have hcA := I.cmA
  have hp1 : (2:ℝ)^(-1000:ℤ) ≤ 2 * A := by
    have : (2:ℝ)^(-1000:ℤ) ≤ (2:ℝ)^(-52:ℤ) := zpow_le_zpow_right₀ (by norm_num) (by norm_num)
    have h2 : (2:ℝ)^(-52:ℤ) ≤ eps := by unfold XR.eps; rw [zpow_neg]; norm_num
    linarith
  have hp2 : 2 * A ≤ (2:ℝ)^(1000:ℤ) := by
    have h3 := I.A2
    have : (2:ℝ) * (2:ℝ)^(300:ℤ) = (2:ℝ)^(301:ℤ) := by
      rw [show (301:ℤ) = 1 + 300 by norm_num, zpow_add₀ (by norm_num)]; norm_num
    have h4 : (2:ℝ)^(301:ℤ) ≤ (2:ℝ)^(1000:ℤ) := zpow_le_zpow_right₀ (by norm_num) (by norm_num)
    calc 2 * A ≤ 2 * (2:ℝ)^(300:ℤ) := mul_le_mul_of_nonneg_left h3 (by norm_num)
      _ = (2:ℝ)^(301:ℤ) := this
      _ ≤ _ := h4
  obtain ⟨s, hs, hse⟩ := rd_err R (r := a + H) (B := 2 * A) (by rw [abs_of_nonneg (by linarith)]; linarith) hp1 hp2
  obtain ⟨t, ht, hte⟩ := rd_err R (r := b + K) (B := 2 * A) (by rw [abs_of_nonneg (by linarith)]; linarith) hp1 hp2
  have e1 : (Arith.add z l).1 = fin s := by
    show (F64.rnd R (XR.add z.1 l.1)).1 = _
    rw [ez, el]; exact hs
  have e2 : (Arith.add x k).1 = fin t := by
    show (F64.rnd R (XR.add x.1 k.1)).1 = _
    rw [ex, ek]; exact ht
  have h1 : Arith.lt (Arith.add z l).1 (Arith.add x k).1 = false := hlt
  rw [e1, e2] at h1
  have h2 : t ≤ s := by simpa [Arith.lt, XR.lt] using h1
  have hu := I.uA_le
  have h3 : uu * (2 * A) + uu * (2 * A) ≤ I.e := by
    have : 0 ≤ uu * A := by have := uu_pos; positivity
    nlinarith
  have := I.e_le_β
  have := abs_le.1 hse
  have := abs_le.1 hte
  linarith

theorem AGoal.step (I : DInput dims g h v [p] cm cM A) {w : ℝ} (w0 : 0 ≤ w) (hw : ∀ i, i < dims.prod → g.occ i = false → h / v i + I.β ≤ w)
    (hwA : w * dims.prod ≤ A) {cfg : Cfg (F64 R)} {H : Nat → ℝ} {η : ℝ} (hη : 0 ≤ η) (hH : IsHeur cfg g dims p H) (hHA : ∀ i, i < dims.prod → 0 ≤ H i ∧ H i ≤ A)
    (hcons : Consistent dims (Shape.mk' dims).idx2coord (fun i => g.occ i = false) (fun i => h / v i + η) p H) {s s' : St (F64 R)}
    (G : AGoal I η s) (J : I.MInv w s) (HI : HInv cfg g [p] s) (hs : StepMin cfg s s') : AGoal I η s' := by
  have hp : p < dims.prod := I.X.inside p (by simp)
  have hβ := I.β_pos
  have hcA : w * (DInput.touched dims s.g).card ≤ A := le_trans (mul_le_mul_of_nonneg_left (by exact_mod_cast DInput.card_touched_le s.g) w0) hwA
  obtain ⟨_, x, htop, rfl⟩ := hs
  have hmap : SameMap g s.g := HI.same
  have hsh : s.g.shape = Shape.mk' dims := hmap.shape.trans I.X.shape
  have hgood := J.l.good
  have hxN : x < dims.prod := J.heap x htop.1
  have hval : ∀ z (a : ℝ), tf s.g z = (a : WithTop ℝ) → ((s.g.cells z).value).1 = fin a ∧ 0 ≤ a ∧ a ≤ A := by
    intro z a ha
    have h1 := (hgood z).ofT_toT
    have h2 : toT ((gridX s.g).value z) = (a : WithTop ℝ) := ha
    rw [h2] at h1
    have h3 := J.l.le I hcA z a ha
    have h4 := (hgood z).toT_nonneg
    rw [h2] at h4
    exact ⟨h1.symm, by exact_mod_cast h4, h3⟩
  -- the popped cell
  have hx : ∀ t n, Route dims (Shape.mk' dims).idx2coord (fun i => g.occ i = false) (fun i => h / v i) p x t n →
      tf s.g x ≤ ((t + (n + 1) * loss I η : ℝ) : WithTop ℝ) := by
    intro t n r
    rcases G.front I hη hcons r with hf | ⟨z, hz, a, ha, hle⟩
    · exact G.fr x t n hf r
    · have hzN : z < dims.prod := J.heap z hz
      have h1 := htop.2 z hz
      have e1 : ((s.g.cells z).hValue).1 = fin (H z) := by rw [HI.lab z (HI.hp z hz)]; exact hH z hzN (G.free z (Or.inl hz))
      have e2 : ((s.g.cells x).hValue).1 = fin (H x) := by rw [HI.lab x (HI.hp x htop.1)]; exact hH x hxN (G.free x (Or.inl htop.1))
      obtain ⟨e3, a0, aA⟩ := hval z a ha
      unfold Cell.total at h1
      rcases hgood x with hv | ⟨b, _, hv⟩
      · exfalso
        have hv' : ((s.g.cells x).value).1 = pinf := hv
        have k2 : (Arith.add (s.g.cells x).value (s.g.cells x).hValue).1 = pinf := by
          show (F64.rnd R (XR.add _ _)).1 = _
          rw [hv', e2]; rfl
        have k1 : ∃ q : ℝ, (Arith.add (s.g.cells z).value (s.g.cells z).hValue).1 = fin q := by
          obtain ⟨h5, h6⟩ := hHA z hzN
          have hA0 := I.Apos
          have hp1 : (2:ℝ)^(-1000:ℤ) ≤ 2 * A := by
            have : (2:ℝ)^(-1000:ℤ) ≤ (2:ℝ)^(-52:ℤ) := zpow_le_zpow_right₀ (by norm_num) (by norm_num)
            have h2 : (2:ℝ)^(-52:ℤ) ≤ eps := by unfold XR.eps; rw [zpow_neg]; norm_num
            have := I.margin
            have := I.cmA
            have := eps_pos
            linarith
          have hp2 : 2 * A ≤ (2:ℝ)^(1000:ℤ) := by
            have h3 := I.A2
            have : (2:ℝ) * (2:ℝ)^(300:ℤ) = (2:ℝ)^(301:ℤ) := by
              rw [show (301:ℤ) = 1 + 300 by norm_num, zpow_add₀ (by norm_num)]; norm_num
            have h4 : (2:ℝ)^(301:ℤ) ≤ (2:ℝ)^(1000:ℤ) := zpow_le_zpow_right₀ (by norm_num) (by norm_num)
            calc 2 * A ≤ 2 * (2:ℝ)^(300:ℤ) := mul_le_mul_of_nonneg_left h3 (by norm_num)
              _ = (2:ℝ)^(301:ℤ) := this
              _ ≤ _ := h4
          obtain ⟨q, hq, _⟩ := rd_err R (r := a + H z) (B := 2 * A) (by rw [abs_of_nonneg (by linarith)]; linarith) hp1 hp2
          refine ⟨q, ?_⟩
          show (F64.rnd R (XR.add _ _)).1 = _
          rw [e3, e1]; exact hq
        obtain ⟨q, k1⟩ := k1
        have h2 : Arith.lt (Arith.add (s.g.cells z).value (s.g.cells z).hValue).1 (Arith.add (s.g.cells x).value (s.g.cells x).hValue).1 = false := by
          have h3 : Arith.lt (Arith.add (s.g.cells z).value (s.g.cells z).hValue) (Arith.add (s.g.cells x).value (s.g.cells x).hValue) = false := by simpa using h1
          exact h3
        rw [k1, k2] at h2
        simp [Arith.lt, XR.lt] at h2
      · have hv' : tf s.g x = (b : WithTop ℝ) := by rw [tf_eq]; show toT ((gridX s.g).value x) = _; rw [hv]; rfl
        obtain ⟨e4, b0, bA⟩ := hval x b hv'
        have := key_le I e4 e3 e2 e1 ⟨a0, aA⟩ ⟨b0, bA⟩ (hHA z hzN) (hHA x hxN) (by simpa using h1)
        rw [hv']
        have hl : loss I η = 3 * I.β + η := rfl
        exact_mod_cast (by rw [hl] at hle ⊢; linarith : b ≤ t + (n + 1) * loss I η)
  have hcell : ∀ k, (s.g.state k = .frozen ∨ k = x) → tf (expand cfg eikS s x).g k = tf s.g k := by
    intro k hk
    have : (expand cfg eikS s x).g.value k = s.g.value k := by
      refine expand_inv (I := fun t : St (F64 R) => t.g.value k = s.g.value k ∧ t.g.state k = .frozen) cfg eikS s x (fun _ _ h => h) ?_ ?_ |>.1
      · refine ⟨by simp [popped], ?_⟩
        rw [popped]; dsimp only; rw [Grid.state_setState]; split
        · rfl
        · next hne => exact hk.resolve_right hne
      · intro t j _ ht
        have e : (relax cfg eikS t j).g.cells k = t.g.cells k := relax_cells_protected (Or.inl ht.2)
        unfold Grid.value Grid.state at *
        rw [e]; exact ht
    rw [tf_eq, tf_eq, this]
  refine ⟨Or.inr ⟨x, ?_⟩, ?_, ?_⟩
  · rw [expand_eq]
    have hl : ∀ j ∈ s.g.shape.nbrs x, j < dims.prod := fun j hj => FMM.nbr_lt I.X.fits hxN (by rw [← hsh]; exact hj)
    have B := AStar.fold I w0 hw hwA (cfg := cfg) (x := x) (s.g.shape.nbrs x) (popped s x) hl (J.popped I w0 x) (by
      have htvp : tf (popped s x).g = tf s.g := by funext k; rw [tf_eq, tf_eq]; simp [popped]
      have hst : ∀ k, (popped s x).g.state k = if k = x then .frozen else s.g.state k := fun k => by simp [popped, Grid.state_setState]
      rcases G.main with ⟨hh, h0, ho, ht⟩ | ⟨x0, S⟩
      · have hxp : x = p := by have := htop.1; rw [hh] at this; simpa using this
        subst hxp
        refine ⟨?_, ?_, ?_, ?_, ?_, ?_⟩
        · intro y hy; rw [hst] at hy; split at hy
          · next e => rw [e]; exact hp
          · rw [ho] at hy; cases hy
        · rw [hst, if_pos rfl]
        · rw [htvp]; exact h0
        · intro k hk; rw [hst] at hk; rw [htvp]; split at hk
          · cases hk
          · next e => exact ht k e
        · intro k hk; rw [hst] at hk; split at hk
          · cases hk
          · rw [ho] at hk; cases hk
        · intro z y hz hy _ _
          rw [hst] at hz; split at hz
          · next e => left; exact ⟨e, by rw [hsh, ← e]; exact hy⟩
          · rw [ho] at hz; cases hz
      · refine ⟨?_, ?_, ?_, ?_, ?_, ?_⟩
        · intro y hy; rw [hst] at hy; split at hy
          · next e => rw [e]; exact hxN
          · exact S.fzN y hy
        · rw [hst]; split
          · rfl
          · exact S.pf
        · rw [htvp]; exact S.p0
        · intro k hk; rw [hst] at hk; rw [htvp]; split at hk
          · cases hk
          · exact S.opn k hk
        · intro k hk; rw [hst] at hk; split at hk
          · cases hk
          · next e =>
            have := S.nar k hk
            exact (List.mem_erase_of_ne e).2 this
        · intro z y hz hy ho' hnf
          rw [hst] at hz
          by_cases hzx : z = x
          · left; exact ⟨hzx, by rw [hsh, ← hzx]; exact hy⟩
          · rw [if_neg hzx] at hz
            rw [hst] at hnf
            by_cases hyx : y = x
            · rw [if_pos hyx] at hnf; exact absurd rfl hnf
            · rw [if_neg hyx] at hnf
              rcases S.nb z y hz hy ho' hnf with ⟨_, hc⟩ | hc
              · simp at hc
              · right; rw [hst, if_neg hyx, htvp]; exact hc)
    exact ⟨B.fzN, B.pf, B.p0, B.opn, B.nar, B.nb⟩
  · intro y t n hy r
    rw [expand_frozen_iff] at hy
    rw [hcell y hy]
    rcases hy with hy | rfl
    · exact G.fr y t n hy r
    · exact hx t n r
  · intro y hy
    rw [expand_frozen_iff] at hy
    have key : ∀ y ∈ (expand cfg eikS s x).heap, y = p ∨ g.occ y = false := by
      refine (expand_inv (I := fun t : St (F64 R) => SameMap g t.g ∧ ∀ y ∈ t.heap, y = p ∨ g.occ y = false) cfg eikS s x (fun _ _ h => h) ?_ ?_).2
      · exact ⟨hmap.trans (popped_sameMap s x), fun y hy => G.free y (Or.inl (List.mem_of_mem_erase hy))⟩
      · intro t j _ ht
        refine ⟨ht.1.trans (relax_sameMap cfg eikS t j), fun y hy => ?_⟩
        rcases relax_heap_mem hy with h1 | ⟨rfl, h1⟩
        · exact ht.2 y h1
        · right; rw [← SameMap.occ_eq ht.1]; exact h1
    rcases hy with hy | hy | rfl
    · exact key y hy
    · exact G.free y (Or.inr hy)
    · exact G.free y (Or.inl htop.1)

theorem AGoal.start (I : DInput dims g h v [p] cm cM A) (η : ℝ) (hfr : Fresh g) (cfg : Cfg (F64 R)) : AGoal I η (init cfg g [] [p]) := by
  refine ⟨Or.inl ⟨by rw [init_heap]; simp, ?_, ?_, ?_⟩, ?_, ?_⟩
  · rw [tf_eq, init_value, if_pos (by simp)]; rfl
  · intro k; rw [init_state]; exact hfr.state k
  · intro k hk; rw [tf_eq, init_value, if_neg (by simpa using hk), hfr.value]; rfl
  · intro x t n hx; rw [init_state, hfr.state] at hx; cases hx
  · intro y hy
    rcases hy with hy | hy
    · rw [init_heap] at hy; left; simpa using hy
    · rw [init_state, hfr.state] at hy; cases hy

/-- the three invariants of a run together -/
theorem AGoal.reach (I : DInput dims g h v [p] cm cM A) {w : ℝ} (w0 : 0 ≤ w) (hw : ∀ i, i < dims.prod → g.occ i = false → h / v i + I.β ≤ w)
    (hwA : w * dims.prod ≤ A) (hfr : Fresh g) {cfg : Cfg (F64 R)} {H : Nat → ℝ} {η : ℝ} (hη : 0 ≤ η) (hH : IsHeur cfg g dims p H) (hHA : ∀ i, i < dims.prod → 0 ≤ H i ∧ H i ≤ A)
    (hcons : Consistent dims (Shape.mk' dims).idx2coord (fun i => g.occ i = false) (fun i => h / v i + η) p H) {n : Nat} {s : St (F64 R)}
    (hs : Steps (StepMin cfg) n (init cfg g [] [p]) s) : AGoal I η s := by
  have key := Steps.inv (r := StepMin cfg) (I := fun s => AGoal I η s ∧ I.MInv w s ∧ HInv cfg g [p] s) ?_ hs
    ⟨AGoal.start I η hfr cfg, DInput.MInv.reach I w0 hw hwA hfr (cfg := cfg) (n := 0) (Steps.refl _), HInv.start cfg hfr [p]⟩
  · exact key.1
  · rintro s t ⟨G, J, K⟩ ht
    refine ⟨G.step I w0 hw hwA hη hH hHA hcons J K ht, ?_, K.step ht.any⟩
    obtain ⟨_, x, hx, rfl⟩ := ht.lib
    have hsh : s.g.shape = Shape.mk' dims := J.l.map.shape.trans I.X.shape
    refine expand_inv (I := fun s => I.MInv w s) cfg eikS s x (fun t b h => ⟨h.l, h.heap⟩) (J.popped I w0 x) ?_
    intro t j hj K
    exact K.relax I w0 hw hwA (FMM.nbr_lt I.X.fits (J.heap x hx) (by rw [← hsh]; exact hj))

/-- sums of squares of coordinates are computed without any rounding -/
theorem foldl_sq64 (cs : List Nat) (a : Nat) (acc : F64 R) (ha : acc.1 = fin a) (h : ∀ c ∈ cs, c ≤ 65535) (hsum : a + (cs.map (fun c => c^2)).sum < 2^53) :
    (cs.foldl (fun (acc : F64 R) c => Arith.add acc (Arith.ofNat (u32 (c * c)))) acc).1 = fin ((a + (cs.map (fun c => c^2)).sum : Nat) : ℝ) := by
  induction cs generalizing a acc with
  | nil => simpa using ha
  | cons c cs ih =>
    have hc := h c (by simp)
    have hcc : c * c < 4294967296 := by nlinarith
    rw [List.foldl_cons, List.map_cons, List.sum_cons, ← add_assoc]
    rw [List.map_cons, List.sum_cons, ← add_assoc] at hsum
    refine ih (a + c^2) _ ?_ (fun x hx => h x (by simp [hx])) hsum
    rw [u32_of_lt hcc]
    show (F64.rnd R (XR.add acc.1 (Arith.ofNat (c * c) : F64 R).1)).1 = _
    rw [ha, ofNat_exact (by norm_num; omega)]
    show R.rd _ = _
    have e : ((a:ℝ) + ((c * c : Nat) : ℝ)) = ((a + c^2 : Nat) : ℝ) := by push_cast; ring
    rw [e, R.exact _ (isDouble_nat (by omega))]

theorem rd_nonneg {r s : ℝ} (hr : 0 ≤ r) (h : R.rd r = fin s) : 0 ≤ s := by
  have := R.mono 0 r hr
  rw [R.exact 0 IsDouble.zero, h] at this
  simpa [XR.le] using this

/-- the value `precomputeDistances` stores is the root, rounded once -/
theorem cellDist64 (s : Shape) (i : Nat) (h : ∀ c ∈ s.idx2coord i, c ≤ 65535) (hlen : (s.idx2coord i).length ≤ 65536) {B : ℝ}
    (hB1 : 1 ≤ B) (hB2 : B ≤ 2^33) (hB : Real.sqrt (((s.idx2coord i).map (fun c : Nat => ((c:ℝ))^2)).sum) ≤ B) :
    ∃ d : ℝ, (cellDist s i : F64 R).1 = fin d ∧ 0 ≤ d ∧ |d - Real.sqrt (((s.idx2coord i).map (fun c : Nat => ((c:ℝ))^2)).sum)| ≤ uu * B := by
  have hb : ((s.idx2coord i).map (fun c => c^2)).sum ≤ (s.idx2coord i).length * 65535^2 := by
    have : ∀ l : List Nat, (∀ c ∈ l, c ≤ 65535) → (l.map (fun c => c^2)).sum ≤ l.length * 65535^2 := by
      intro l hl
      induction l with
      | nil => simp
      | cons c l ih =>
        have h1 := ih (fun x hx => hl x (by simp [hx]))
        have h2 := Nat.pow_le_pow_left (hl c (by simp)) 2
        rw [List.map_cons, List.sum_cons, List.length_cons, Nat.succ_mul]
        omega
    exact this _ h
  have hlt : 0 + ((s.idx2coord i).map (fun c => c^2)).sum < 2^53 := by
    have : (s.idx2coord i).length * 65535^2 ≤ 65536 * 65535^2 := Nat.mul_le_mul_right _ hlen
    norm_num at this ⊢; omega
  have hf := foldl_sq64 (R := R) (s.idx2coord i) 0 Arith.zero (by show XR.fin 0 = _; simp) h hlt
  have hcast : (((0 + ((s.idx2coord i).map (fun c => c^2)).sum : Nat)) : ℝ) = (((s.idx2coord i).map (fun c : Nat => ((c:ℝ))^2)).sum) := by
    rw [zero_add, Nat.cast_list_sum, List.map_map]
    congr 1
    apply List.map_congr_left
    intro c _; simp
  rw [hcast] at hf
  set S : ℝ := ((s.idx2coord i).map (fun c : Nat => ((c:ℝ))^2)).sum with hS
  have hS0 : 0 ≤ S := by
    rw [hS]; apply List.sum_nonneg
    simp only [List.mem_map, forall_exists_index, and_imp]
    rintro _ c _ rfl; positivity
  have h0 := Real.sqrt_nonneg S
  have e1 : (2:ℝ)^(-1000:ℤ) ≤ B := le_trans (by
    have : (2:ℝ)^(-1000:ℤ) ≤ (2:ℝ)^(0:ℤ) := zpow_le_zpow_right₀ (by norm_num) (by norm_num)
    simpa using this) hB1
  have e2 : B ≤ (2:ℝ)^(1000:ℤ) := le_trans hB2 (by
    have : (2:ℝ)^(33:ℤ) ≤ (2:ℝ)^(1000:ℤ) := zpow_le_zpow_right₀ (by norm_num) (by norm_num)
    exact_mod_cast this)
  obtain ⟨d, hd, he⟩ := rd_err R (r := Real.sqrt S) (by rw [abs_of_nonneg h0]; exact hB) e1 e2
  refine ⟨d, ?_, rd_nonneg h0 hd, he⟩
  unfold cellDist
  show (F64.rnd R (XR.sqrt _)).1 = _
  rw [hf]
  simp only [XR.sqrt]
  rw [if_neg (not_lt.2 hS0)]
  exact hd

/-- the distance FMM* uses: the Euclidean distance to the goal, rounded once -/
theorem distance64 (hf : Fits dims (2^31+1)) (hd : ∀ n ∈ dims, n ≤ 65536) (hlen : dims.length ≤ 65536) {i goal : Nat} (hi : i < dims.prod)
    (hg : goal < dims.prod) (old : Nat → F64 R) :
    ∃ d : ℝ, (getPrecomputedDistance (Shape.mk' dims) (precomputeDistances (Shape.mk' dims) old) ((Shape.mk' dims).idx2coord goal) i).1 = fin d ∧ 0 ≤ d ∧
      |d - euclid ((Shape.mk' dims).idx2coord i) ((Shape.mk' dims).idx2coord goal)| ≤ uu * dims.prod := by
  have h : Fits dims (2^32) := hf.mono (by norm_num)
  have hN := mk'_ncells h
  obtain ⟨bi, _⟩ := C01_idx_roundtrip dims h i (by rw [hN]; exact hi)
  obtain ⟨bg, _⟩ := C01_idx_roundtrip dims h goal (by rw [hN]; exact hg)
  have bd := diff_inBox bi bg hd
  obtain ⟨hlt, _, hback⟩ := C01_coord_roundtrip dims h _ bd
  have hE : Real.sqrt ((((Shape.mk' dims).idx2coord (distIdx (Shape.mk' dims) ((Shape.mk' dims).idx2coord goal) i)).map (fun c : Nat => ((c:ℝ))^2)).sum) =
      euclid ((Shape.mk' dims).idx2coord i) ((Shape.mk' dims).idx2coord goal) := by
    unfold distIdx
    rw [hback, zipWith_diff_sq _ _ (fun x hx => by have := bi.mem_lt hd x hx; omega) (fun x hx => by have := bg.mem_lt hd x hx; omega)]
    rfl
  have hp := euclid_le_prod hf hi hg
  have h1 : (1:ℝ) ≤ dims.prod := by exact_mod_cast (by omega : 1 ≤ dims.prod)
  have h2 : (dims.prod : ℝ) ≤ 2^33 := by
    have : dims.prod ≤ 2^33 := by have := hf.lt; omega
    exact_mod_cast this
  obtain ⟨d, e1, e2, e3⟩ := cellDist64 (R := R) (Shape.mk' dims) (distIdx (Shape.mk' dims) ((Shape.mk' dims).idx2coord goal) i) (by
      unfold distIdx; rw [hback]; intro c hc; have := bd.mem_lt hd c hc; omega) (by unfold distIdx; rw [hback, bd.1]; exact hlen) h1 h2 (by rw [hE]; exact hp)
  rw [hE] at e3
  refine ⟨d, ?_, e2, e3⟩
  unfold getPrecomputedDistance precomputeDistances
  have hlt' : distIdx (Shape.mk' dims) ((Shape.mk' dims).idx2coord goal) i < (Shape.mk' dims).ncells := by unfold distIdx; exact hlt
  rw [if_pos hlt']; exact e1

theorem length_le (hf : Fits dims (2^31+1)) (ht : ∀ x ∈ dims, 2 ≤ x) : dims.length ≤ 65536 := by
  have h1 := List.pow_card_le_prod dims 2 ht
  have h2 := hf.lt
  by_contra hcon
  have : 2^32 ≤ 2^dims.length := Nat.pow_le_pow_right (by norm_num) (by omega)
  norm_num at *; omega

end Star64
open Star64

section final
variable {dims : List Nat} {g : Grid (F64 R)} {h : ℝ} {v : Nat → ℝ} {p : Nat} {cm cM : ℝ}

/-- **C107** (any heuristic): in doubles, with one starting point, an ordered queue and any heuristic values that lose at most `η` more than the time of a move, every FROZEN cell -
in particular the goal, when the run stops there - has an arrival time that is not below the exact one by more than rounding, and not above the time of any route along the axes by more
than `3 (COMP_MARGIN + rounding) + η` per move of the route. -/
theorem C107_goal_time (I : DInput dims g h v [p] cm cM (2 * cM * dims.prod)) (hcc : cm ≤ cM) (hfr : Fresh g) (cfg : Cfg (F64 R)) (H : Nat → ℝ) (η : ℝ) (hη : 0 ≤ η)
    (hH : ∀ i, i < dims.prod → (i = p ∨ g.occ i = false) → (heurOf cfg g i).1 = fin (H i)) (hHA : ∀ i, i < dims.prod → 0 ≤ H i ∧ H i ≤ 2 * cM * dims.prod)
    (hcons : Consistent dims (Shape.mk' dims).idx2coord (fun i => g.occ i = false) (fun i => h / v i + η) p H) (n : Nat) (s : St (F64 R))
    (hs : Steps (StepMin cfg) n (init cfg g [] [p]) s) (i : Nat) (hf : s.g.state i = .frozen) :
    (∀ U, I.X.problem.IsSolution U → i < dims.prod → NotBelow (roundErr dims.length cm (2 * cM * dims.prod)) (U i) (s.g.value i).1) ∧
    ∀ t m, Route dims (Shape.mk' dims).idx2coord (fun i => g.occ i = false) (fun i => h / v i) p i t m →
      tf s.g i ≤ ((t + (m + 1) * (3 * (eps + F64.eerr cm (2 * cM * dims.prod) dims.length) + η) : ℝ) : WithTop ℝ) :=
  ⟨fun U hU hi => C93_FMM I hcc hfr U hU cfg n s (hs.mono (fun _ _ => StepMin.lib)) i hi,
   fun t m r => (AGoal.reach I (I.wpos hcc) (I.wok hcc) (le_refl _) hfr hη hH hHA hcons hs).fr i t m hf r⟩

/-- **C107** (arrival): when the run ends and some route along the axes leads to the goal, the goal is FROZEN, so that the bound above applies to it. -/
theorem C107_goal_reached (I : DInput dims g h v [p] cm cM (2 * cM * dims.prod)) (hcc : cm ≤ cM) (hfr : Fresh g) (cfg : Cfg (F64 R)) (H : Nat → ℝ) (η : ℝ) (hη : 0 ≤ η)
    (hH : ∀ i, i < dims.prod → (i = p ∨ g.occ i = false) → (heurOf cfg g i).1 = fin (H i)) (hHA : ∀ i, i < dims.prod → 0 ≤ H i ∧ H i ≤ 2 * cM * dims.prod)
    (hcons : Consistent dims (Shape.mk' dims).idx2coord (fun i => g.occ i = false) (fun i => h / v i + η) p H) (n : Nat) (s : St (F64 R))
    (hs : Steps (StepMin cfg) n (init cfg g [] [p]) s) (hd : FMM.Done s) (t : ℝ) (m : Nat)
    (r : Route dims (Shape.mk' dims).idx2coord (fun i => g.occ i = false) (fun i => h / v i) p cfg.goal t m) : s.g.state cfg.goal = .frozen := by
  rcases hd with hd | hd
  · exact stop_goal (hs.mono (fun _ _ => StepMin.any)) hd
  · rcases (AGoal.reach I (I.wpos hcc) (I.wok hcc) (le_refl _) hfr hη hH hHA hcons hs).front I hη hcons r with hf | ⟨z, hz, _⟩
    · exact hf
    · rw [hd] at hz; simp at hz

/-- **C107** (no heuristic): FMM and SFMM. -/
theorem C107_no_heuristic (I : DInput dims g h v [p] cm cM (2 * cM * dims.prod)) (hcc : cm ≤ cM) (hfr : Fresh g) (cfg : Cfg (F64 R)) (hheur : cfg.heur = .none)
    (n : Nat) (s : St (F64 R)) (hs : Steps (StepMin cfg) n (init cfg g [] [p]) s) (i : Nat) (hf : s.g.state i = .frozen) (t : ℝ) (m : Nat)
    (hr : Route dims (Shape.mk' dims).idx2coord (fun i => g.occ i = false) (fun i => h / v i) p i t m) :
    tf s.g i ≤ ((t + (m + 1) * (3 * (eps + F64.eerr cm (2 * cM * dims.prod) dims.length)) : ℝ) : WithTop ℝ) := by
  have hA := I.Apos
  have := (C107_goal_time I hcc hfr cfg (fun _ => 0) 0 (le_refl _) (fun i _ _ => by unfold heurOf; rw [hheur]; rfl) (fun i _ => ⟨le_refl _, hA.le⟩) (by
    intro a b ha hb _ hfree hadj
    have := I.lo b hb hfree
    have := I.cm0
    dsimp only; linarith) n s hs i hf).2 t m hr
  simpa using this

/-- **C107** (DISTANCE): the library's table, on maps where no cell is crossed in less than the time 1. -/
theorem C107_distance (I : DInput dims g h v [p] cm cM (2 * cM * dims.prod)) (hcc : cm ≤ cM) (hfr : Fresh g) (hd : ∀ n ∈ dims, n ≤ 65536) {goal : Nat}
    (hgoal : goal < dims.prod) (old : Nat → F64 R) (cfg : Cfg (F64 R)) (hheur : cfg.heur = .distance)
    (hdist : cfg.hdist = getPrecomputedDistance (Shape.mk' dims) (precomputeDistances (Shape.mk' dims) old) ((Shape.mk' dims).idx2coord goal)) (hslow : 1 ≤ cm)
    (n : Nat) (s : St (F64 R)) (hs : Steps (StepMin cfg) n (init cfg g [] [p]) s) :
    (∀ i t m, s.g.state i = .frozen → Route dims (Shape.mk' dims).idx2coord (fun i => g.occ i = false) (fun i => h / v i) p i t m →
      tf s.g i ≤ ((t + (m + 1) * (3 * (eps + F64.eerr cm (2 * cM * dims.prod) dims.length) + 2 * uu * dims.prod) : ℝ) : WithTop ℝ)) ∧
    (FMM.Done s → ∀ t m, Route dims (Shape.mk' dims).idx2coord (fun i => g.occ i = false) (fun i => h / v i) p cfg.goal t m → s.g.state cfg.goal = .frozen) := by
  have hlen := length_le I.X.fits I.X.two
  have hu := uu_pos
  have hN : (0:ℝ) ≤ dims.prod := Nat.cast_nonneg _
  have hex : ∀ i, ∃ d : ℝ, i < dims.prod → (cfg.hdist i).1 = fin d ∧ 0 ≤ d ∧ |d - euclid ((Shape.mk' dims).idx2coord i) ((Shape.mk' dims).idx2coord goal)| ≤ uu * dims.prod := by
    intro i
    by_cases hi : i < dims.prod
    · obtain ⟨d, h1⟩ := distance64 (R := R) I.X.fits hd hlen hi hgoal old
      exact ⟨d, fun _ => by rw [hdist]; exact h1⟩
    · exact ⟨0, fun h => absurd h hi⟩
  choose d hdd using hex
  set dd : Nat → ℝ := d
  have hη : 0 ≤ 2 * uu * dims.prod := by positivity
  suffices hall : (∀ i, i < dims.prod → (i = p ∨ g.occ i = false) → (heurOf cfg g i).1 = fin (dd i)) ∧ (∀ i, i < dims.prod → 0 ≤ dd i ∧ dd i ≤ 2 * cM * dims.prod) ∧
      Consistent dims (Shape.mk' dims).idx2coord (fun i => g.occ i = false) (fun i => h / v i + 2 * uu * dims.prod) p dd by
    obtain ⟨a1, a2, a3⟩ := hall
    exact ⟨fun i t m hf hr => (C107_goal_time I hcc hfr cfg dd _ hη a1 a2 a3 n s hs i hf).2 t m hr,
      fun hdn t m hr => C107_goal_reached I hcc hfr cfg dd _ hη a1 a2 a3 n s hs hdn t m hr⟩
  refine ⟨?_, ?_, ?_⟩
  · intro k hk _
    unfold heurOf; rw [hheur]
    exact (hdd k hk).1
  · intro k hk
    obtain ⟨_, h1, h2⟩ := hdd k hk
    have h3 := euclid_le_prod I.X.fits hk hgoal
    have h4 := (abs_le.1 h2).2
    have h5 : uu * dims.prod ≤ dims.prod := by
      have : uu ≤ 1 := by unfold uu; norm_num
      calc uu * dims.prod ≤ 1 * dims.prod := mul_le_mul_of_nonneg_right this hN
        _ = _ := one_mul _
    have h6 : (1:ℝ) * dims.prod ≤ cM * dims.prod := mul_le_mul_of_nonneg_right (by linarith) hN
    exact ⟨h1, by linarith⟩
  · intro a b ha hb _ hfree hadj
    have h1 := euclid_adjacent (c := (Shape.mk' dims).idx2coord goal) hadj
    have h2 := I.lo b hb hfree
    have h3 := (abs_le.1 (hdd a ha).2.2).2
    have h4 := (abs_le.1 (hdd b hb).2.2).1
    dsimp only; linarith

/-- **C107** (TIME): the library's table divided by the speed, on maps where all free cells have the same speed and the cells are at least 1 wide. -/
theorem C107_time {w : ℝ} (I : DInput dims g h (fun _ => w) [p] cm cM (2 * cM * dims.prod)) (hcc : cm ≤ cM) (hfr : Fresh g) (hd : ∀ n ∈ dims, n ≤ 65536) {goal : Nat}
    (hgoal : goal < dims.prod) (old : Nat → F64 R) (cfg : Cfg (F64 R)) (hheur : cfg.heur = .time)
    (hdist : cfg.hdist = getPrecomputedDistance (Shape.mk' dims) (precomputeDistances (Shape.mk' dims) old) ((Shape.mk' dims).idx2coord goal))
    (hp : g.occ p = false) (hh : 1 ≤ h) (n : Nat) (s : St (F64 R)) (hs : Steps (StepMin cfg) n (init cfg g [] [p]) s) :
    (∀ i t m, s.g.state i = .frozen → Route dims (Shape.mk' dims).idx2coord (fun i => g.occ i = false) (fun _ => h / w) p i t m →
      tf s.g i ≤ ((t + (m + 1) * (3 * (eps + F64.eerr cm (2 * cM * dims.prod) dims.length) + 6 * uu * cM * dims.prod) : ℝ) : WithTop ℝ)) ∧
    (FMM.Done s → ∀ t m, Route dims (Shape.mk' dims).idx2coord (fun i => g.occ i = false) (fun _ => h / w) p cfg.goal t m → s.g.state cfg.goal = .frozen) := by
  have hlen := length_le I.X.fits I.X.two
  have hu := uu_pos
  have hu1 : uu ≤ 1 / 8 := by unfold uu; norm_num
  have hpN : p < dims.prod := I.X.inside p (by simp)
  have hw : 0 < w := I.X.vpos hpN hp
  have hcM : h / w ≤ cM := I.hi p hpN hp
  have hcM0 : 0 < cM := lt_of_lt_of_le I.cm0 hcc
  have hiw : 1 / w ≤ cM := le_trans (div_le_div_of_nonneg_right hh hw.le) hcM
  have hN : (0:ℝ) ≤ dims.prod := Nat.cast_nonneg _
  have hA0 := I.Apos
  have hB1 : (2:ℝ)^(-1000:ℤ) ≤ 2 * cM * dims.prod := by
    have : (2:ℝ)^(-1000:ℤ) ≤ (2:ℝ)^(-52:ℤ) := zpow_le_zpow_right₀ (by norm_num) (by norm_num)
    have h2 : (2:ℝ)^(-52:ℤ) ≤ eps := by unfold XR.eps; rw [zpow_neg]; norm_num
    have := I.margin
    have := I.cmA
    have := eps_pos
    linarith
  have hB2 : 2 * cM * dims.prod ≤ (2:ℝ)^(1000:ℤ) := le_trans I.A2 (zpow_le_zpow_right₀ (by norm_num) (by norm_num))
  set N : ℝ := ((dims.prod : Nat) : ℝ) with hNdef
  have hex : ∀ i, ∃ q : ℝ, i < dims.prod → ((i = p ∨ g.occ i = false) → (heurOf cfg g i).1 = fin q) ∧ 0 ≤ q ∧ q ≤ 2 * cM * N ∧
      |q - euclid ((Shape.mk' dims).idx2coord i) ((Shape.mk' dims).idx2coord goal) / w| ≤ 3 * uu * cM * N := by
    intro i
    by_cases hi : i < dims.prod
    · obtain ⟨d, h1, h2, h3⟩ := distance64 (R := R) I.X.fits hd hlen hi hgoal old
      rw [← hNdef] at h3
      have h4 : _ ≤ N := euclid_le_prod I.X.fits hi hgoal
      set E := euclid ((Shape.mk' dims).idx2coord i) ((Shape.mk' dims).idx2coord goal) with hE
      have hdw : d / w = d * (1 / w) := by ring
      have hEw : E / w = E * (1 / w) := by ring
      have hw0 : 0 ≤ 1 / w := by positivity
      have h5 := abs_le.1 h3
      have hNc : 0 ≤ N * cM := by positivity
      have hdle : d ≤ (1 + uu) * N := by linarith
      have h6 : d / w ≤ (1 + uu) * N * cM := by rw [hdw]; exact mul_le_mul hdle hiw hw0 (by positivity)
      have h7 : |d / w - E / w| ≤ uu * N * cM := by
        rw [hdw, hEw, ← sub_mul, abs_mul, abs_of_nonneg hw0]
        exact mul_le_mul h3 hiw hw0 (by positivity)
      have h60 : 0 ≤ d / w := by positivity
      have hs1 : uu * (N * cM) ≤ 1 / 8 * (N * cM) := mul_le_mul_of_nonneg_right hu1 hNc
      obtain ⟨q, hq, hqe⟩ := rd_err R (r := d / w) (B := 2 * cM * N) (by rw [abs_of_nonneg h60]; linarith) hB1 hB2
      have h8 := abs_le.1 hqe
      refine ⟨q, fun _ => ⟨fun hfree => ?_, rd_nonneg h60 hq, by linarith, ?_⟩⟩
      · have hfo : g.occ i = false := by rcases hfree with rfl | h <;> assumption
        have hv : (g.vel i).1 = fin w := I.X.speed i hi hfo
        unfold heurOf; rw [hheur]; dsimp only
        show (F64.rnd R (XR.div (cfg.hdist i).1 (g.vel i).1)).1 = _
        rw [hdist, h1, hv]
        have : XR.div (fin d) (fin w) = fin (d / w) := by simp [XR.div, hw.ne']
        rw [this]; exact hq
      · have h9 := abs_le.1 h7
        exact abs_le.2 ⟨by linarith, by linarith⟩
    · exact ⟨0, fun h => absurd h hi⟩
  choose q hqq using hex
  set qq : Nat → ℝ := q
  have hη : 0 ≤ 6 * uu * cM * N := by positivity
  suffices a3 : Consistent dims (Shape.mk' dims).idx2coord (fun i => g.occ i = false) (fun i => h / (fun _ => w) i + 6 * uu * cM * N) p qq by
    have a1 : ∀ i, i < dims.prod → (i = p ∨ g.occ i = false) → (heurOf cfg g i).1 = fin (qq i) := fun k hk hfree => (hqq k hk).1 hfree
    have a2 : ∀ i, i < dims.prod → 0 ≤ qq i ∧ qq i ≤ 2 * cM * N := fun k hk => ⟨(hqq k hk).2.1, (hqq k hk).2.2.1⟩
    exact ⟨fun i t m hf hr => (C107_goal_time I hcc hfr cfg qq _ hη a1 a2 a3 n s hs i hf).2 t m hr,
      fun hdn t m hr => C107_goal_reached I hcc hfr cfg qq _ hη a1 a2 a3 n s hs hdn t m hr⟩
  intro a b ha hb _ hfree hadj
  have h1 := euclid_adjacent (c := (Shape.mk' dims).idx2coord goal) hadj
  have h2 := (abs_le.1 (hqq a ha).2.2.2).2
  have h3 := (abs_le.1 (hqq b hb).2.2.2).1
  have h4 := div_le_div_of_nonneg_right h1 hw.le
  rw [add_div] at h4
  have h5 : 1 / w ≤ h / w := div_le_div_of_nonneg_right hh hw.le
  dsimp only; linarith

end final

/-- non-vacuity: rounding to nearest, FMM* with the library's distances on a 3 x 3 grid of doubles, from corner to corner: the hypotheses of `C107_distance` hold, a route of 4 moves that
takes 4 leads to the goal, the run ends with the goal FROZEN, and its time is at most `4 + 1e-9` -/
example : ∃ (g : Grid (F64 Rounding.nearest)) (cfg : Cfg (F64 Rounding.nearest)) (I : DInput [3,3] g 1 (fun _ => 1) [0] 1 1 (2 * 1 * (([3,3] : List Nat).prod : ℝ))) (n : Nat)
    (s : St (F64 Rounding.nearest)), Fresh g ∧ cfg.heur = .distance ∧ cfg.goal = 8 ∧
    cfg.hdist = getPrecomputedDistance (Shape.mk' [3,3]) (precomputeDistances (Shape.mk' [3,3]) (fun _ => Arith.zero)) ((Shape.mk' [3,3]).idx2coord 8) ∧
    Steps (StepMin cfg) n (init cfg g [] [0]) s ∧ FMM.Done s ∧ s.g.state 8 = .frozen ∧ tf s.g 8 ≤ ((4 + 1 / 10^9 : ℝ) : WithTop ℝ) := by
  set g : Grid (F64 Rounding.nearest) := Grid.create [3,3] Arith.one (0,0) with hg
  have X : XInput [3,3] (gridX g) 1 (fun _ => 1) [0] :=
    ⟨⟨by decide, by decide, by decide⟩, by decide, rfl, by decide, one_pos, rfl, fun _ _ _ => rfl⟩
  have hin : Input [3,3] g [0] := ⟨X.fits, rfl, X.inside⟩
  have hfr : Fresh g := ⟨fun _ => rfl, fun _ => rfl, fun _ => rfl⟩
  have hocc : ∀ i, g.occ i = false := by
    intro i
    have : (gridX g).occ i = false := by
      show XR.lt (fin 1) (fin eps) = false
      unfold XR.lt XR.eps; norm_num
    exact this
  have I : DInput [3,3] g 1 (fun _ => 1) [0] 1 1 (2 * 1 * (([3,3] : List Nat).prod : ℝ)) := by
    have b1 : (2:ℝ)^(-200:ℤ) ≤ 1 := by
      have : (2:ℝ)^(-200:ℤ) ≤ (2:ℝ)^(0:ℤ) := zpow_le_zpow_right₀ (by norm_num) (by norm_num)
      simpa using this
    have b2 : (1:ℝ) ≤ (2:ℝ)^(200:ℤ) := by
      have : (2:ℝ)^(0:ℤ) ≤ (2:ℝ)^(200:ℤ) := zpow_le_zpow_right₀ (by norm_num) (by norm_num)
      simpa using this
    have b3 : (2:ℝ) * 1 * ((([3,3] : List Nat).prod : Nat) : ℝ) ≤ (2:ℝ)^(300:ℤ) := by
      have : (2:ℝ)^(5:ℤ) ≤ (2:ℝ)^(300:ℤ) := zpow_le_zpow_right₀ (by norm_num) (by norm_num)
      refine le_trans ?_ this
      norm_num
    refine ⟨X, b1, b2, fun _ _ _ => b2, one_pos, fun _ _ _ => by norm_num, fun _ _ _ => by norm_num, by norm_num, by norm_num, b3, ?_, ?_⟩
    · show 640 * ((2:ℕ):ℝ)^4 * uu * (2 * 1 * ((([3,3] : List Nat).prod : Nat) : ℝ))^2 ≤ 1^2
      unfold uu; norm_num
    · unfold XR.eps; norm_num
  set tab := getPrecomputedDistance (Shape.mk' [3,3]) (precomputeDistances (Shape.mk' [3,3]) (fun _ => (Arith.zero : F64 Rounding.nearest))) ((Shape.mk' [3,3]).idx2coord 8) with htab
  obtain ⟨n, s, _, hs, hd⟩ := C13_doubles Rounding.nearest ⟨false, .distance, tab, 8⟩ rfl [3,3] g [0] hin
  have adj : ∀ i j, i < 9 → j ∈ (Shape.mk' [3,3]).nbrs i → AxisAdjacent ((Shape.mk' [3,3]).idx2coord i) ((Shape.mk' [3,3]).idx2coord j) :=
    fun i j hi hj => ((axisAdjacent_iff (dims := [3,3]) X.fits (by simpa using hi)).1 hj).2
  have hr : Route [3,3] (Shape.mk' [3,3]).idx2coord (fun i => g.occ i = false) (fun i => (1:ℝ) / (fun _ => (1:ℝ)) i) 0 8 (0 + 1 / 1 + 1 / 1 + 1 / 1 + 1 / 1) 4 :=
    .move (.move (.move (.move .start (j := 1) (by decide) (hocc _) (adj 0 1 (by decide) (by decide)))
      (j := 2) (by decide) (hocc _) (adj 1 2 (by decide) (by decide)))
      (j := 5) (by decide) (hocc _) (adj 2 5 (by decide) (by decide)))
      (j := 8) (by decide) (hocc _) (adj 5 8 (by decide) (by decide))
  have hmain := C107_distance I (le_refl _) hfr (by decide) (goal := 8) (by decide) (fun _ => Arith.zero) ⟨false, .distance, tab, 8⟩ rfl (by rw [htab]) (le_refl _) n s hs
  have h8 := hmain.2 hd _ _ hr
  refine ⟨g, ⟨false, .distance, tab, 8⟩, I, n, s, hfr, rfl, rfl, (by rw [htab]), hs, hd, h8, (hmain.1 8 _ _ h8 hr).trans ?_⟩
  have : (0 + 1 / 1 + 1 / 1 + 1 / 1 + 1 / 1 : ℝ) + ((4:ℕ) + 1) * (3 * (eps + F64.eerr 1 (2 * 1 * (([3,3] : List Nat).prod : ℝ)) ([3,3] : List Nat).length) + 2 * uu * (([3,3] : List Nat).prod : ℝ))
      ≤ 4 + 1 / 10^9 := by
    unfold F64.eerr uu XR.eps; norm_num
  exact_mod_cast this
end FMV
