import Verif.Spec.Walk
import Verif.Props.Triangle
import Verif.Props.Sight
/-!
# C87: comparison with shortest walks on the grid
-/
set_option linter.unusedSectionVars false
set_option linter.unusedVariables false
namespace FMV
open Spec Shape XR FMM
variable {dims : List Nat} {g : Grid XR} {h : ℝ} {v : Nat → ℝ} {pts : List Nat}

theorem Walk.lt {F : Type} [Arith F] {g : Grid F} {p i : Nat} {b : ℝ} (hp : p < dims.prod) (w : Walk dims g h v p i b) : i < dims.prod := by
  cases w with
  | stay => exact hp
  | step _ hi _ _ => exact hi

/-- no walk is faster than the exact solution -/
theorem exact_le_walk (X : XInput dims g h v pts) {U : Nat → WithTop ℝ} (hU : X.problem.IsSolution U) {p i : Nat} {b : ℝ} (hp : p ∈ pts) (w : Walk dims g h v p i b) :
    U i ≤ (b : WithTop ℝ) := by
  induction w with
  | stay => rw [(X.exSol hU p (X.inside p hp)).1 hp]; simp
  | @step q i b hw hi had ho ih =>
    have hq := Walk.lt (X.inside p hp) hw
    have hn : i ∈ (Shape.mk' dims).nbrs q := (axisAdjacent_iff X.fits hq).2 ⟨hi, had⟩
    have hn' : q ∈ (Shape.mk' dims).nbrs i := nbrs_symm X.fits hq hn
    have := ExSol.step_le X.fits X.cpos' (X.exSol hU) hi (by simp [ho]) hn'
    refine le_trans this ?_
    rw [WithTop.coe_add]
    exact add_le_add_left ih _

/-- some walk is at most `√D` times slower -/
theorem exact_walk (X : XInput dims g h v pts) {U : Nat → WithTop ℝ} (hU : X.problem.IsSolution U) {i : Nat} (hi : i < dims.prod) {r : ℝ} (hr : U i = (r : WithTop ℝ)) :
    ∃ p ∈ pts, ∃ b, Walk dims g h v p i b ∧ b ≤ Real.sqrt dims.length * r := by
  have E := X.exSol hU
  have key : ∀ q i, i < dims.prod → XInput.rank dims.prod U i < q → ∀ r : ℝ, U i = (r : WithTop ℝ) →
      ∃ p ∈ pts, ∃ b, Walk dims g h v p i b ∧ b ≤ Real.sqrt dims.length * r := by
    intro q
    induction q with
    | zero => intro i _ hq; omega
    | succ q ih =>
      intro i hi hq r hr
      by_cases hs : i ∈ pts
      · have h0 := (E i hi).1 hs
        rw [h0] at hr
        have : r = 0 := by exact_mod_cast hr.symm
        subst this
        exact ⟨i, hs, 0, .stay, by simp⟩
      · by_cases ho : g.occ i = true
        · rw [(E i hi).2.1 hs ho] at hr; cases hr
        rcases (E i hi).2.2 hs ho with ⟨x, hx, hres⟩ | ⟨e, _⟩
        · have hci := X.cpos' i hi ho
          have hxr : x = r := by rw [hx] at hr; exact_mod_cast hr
          subst hxr
          obtain ⟨t, ht, htc⟩ := residL_share hci (n := dims.length) (by unfold mins; simp; rfl) hres
          have htx : t < x := by
            by_contra hh
            have := mul_nonneg (Real.sqrt_nonneg ((dims.length : ℕ) : ℝ)) (show 0 ≤ t - x by linarith)
            nlinarith
          unfold mins at ht
          obtain ⟨k, hk, hkt⟩ := List.mem_map.1 ht
          obtain ⟨j, hj, hje⟩ := dimMin_attained (s := Shape.mk' dims) (T := U) (i := i) (k := k) (by rw [hkt]; exact WithTop.coe_ne_top)
          have hjN : j < dims.prod := nbrsDim_lt X.fits hi (List.mem_range.1 hk) hj
          have hlt : U j < U i := by
            rw [← hje, hkt, hx]; exact_mod_cast htx
          have hrk := XInput.rank_lt hjN hlt
          have hujt : U j = (t : WithTop ℝ) := by rw [← hje, hkt]
          obtain ⟨p, hp, b, hw, hb⟩ := ih j hjN (by omega) t hujt
          have hjn : j ∈ (Shape.mk' dims).nbrs i := mem_nbrs.2 ⟨k, List.mem_range.1 hk, hj⟩
          have hin : i ∈ (Shape.mk' dims).nbrs j := nbrs_symm X.fits hi hjn
          refine ⟨p, hp, b + h / v i, .step hw hi ((axisAdjacent_iff X.fits hjN).1 hin).2 (by simpa using ho), ?_⟩
          nlinarith
        · rw [e] at hr; cases hr
  exact key _ i hi (Nat.lt_succ_self _) r hr

/-- **C87**, never slower than a walk: the time of a cell in the result of FMM, FSM, LSM, DDQM or FIM is at most the duration of any walk from a starting point to that cell. -/
theorem C87_at_most_walk (X : XInput dims g h v pts) (hfr : Fresh g) (a : Grid XR) (ha : FinalGrid dims g pts a) (p : Nat) (hp : p ∈ pts) (i : Nat) (b : ℝ)
    (w : Walk dims g h v p i b) : ∃ t : ℝ, a.value i = fin t ∧ t ≤ b + dims.prod * (2 * eps) := by
  obtain ⟨U, hU, _⟩ := C17_unique_solution X.problem X.wellPosed
  have hle := exact_le_walk X hU hp w
  rcases ha.exact X hfr hU (Walk.lt (X.inside p hp) w) with ⟨h0, _⟩ | ⟨e, t, e1, e2, e3, e4⟩
  · rw [h0] at hle; exact absurd (top_le_iff.1 hle) WithTop.coe_ne_top
  · rw [e1] at hle
    have := WithTop.coe_le_coe.1 hle
    exact ⟨t, e2, by linarith⟩

/-- **C87**, not much faster than walking: every finite time `t` in a result comes with a walk from a starting point to that cell that takes at most `sqrt D * t`, `D` the number of dimensions. -/
theorem C87_some_walk (X : XInput dims g h v pts) (hfr : Fresh g) (a : Grid XR) (ha : FinalGrid dims g pts a) (i : Nat) (hi : i < dims.prod) (t : ℝ)
    (ht : a.value i = fin t) : ∃ p ∈ pts, ∃ b, Walk dims g h v p i b ∧ b ≤ Real.sqrt dims.length * t := by
  obtain ⟨U, hU, _⟩ := C17_unique_solution X.problem X.wellPosed
  rcases ha.exact X hfr hU hi with ⟨_, h1⟩ | ⟨e, t', e1, e2, e3, e4⟩
  · rw [h1] at ht; cases ht
  · rw [e2] at ht; cases ht
    obtain ⟨p, hp, b, hw, hb⟩ := exact_walk X hU hi e1
    exact ⟨p, hp, b, hw, le_trans hb (mul_le_mul_of_nonneg_left e3 (Real.sqrt_nonneg _))⟩

theorem walk_gridX {R : Rounding} {g : Grid (F64 R)} {p i : Nat} {b : ℝ} : Walk dims (gridX g) h v p i b ↔ Walk dims g h v p i b := by
  constructor
  · intro w
    induction w with
    | stay => exact .stay
    | step _ hi ha ho ih => exact .step ih hi ha ho
  · intro w
    induction w with
    | stay => exact .stay
    | step _ hi ha ho ih => exact .step ih hi ha ho

/-- **C87** in 64-bit floating point, with rounding, for FMM, FSM, LSM and DDQM; `ρ` is the relative error of C59. -/
theorem C87_doubles {R : Rounding} {g : Grid (F64 R)} {cm cM : ℝ} (I : DInput dims g h v pts cm cM (2 * cM * dims.prod)) (hcc : cm ≤ cM) (hfr : Fresh g)
    (a : Grid (F64 R)) (ha : FinalGrid64 dims g pts a) (ρ : ℝ) (hρ : ρ = relErr dims.length cm (2 * cM * dims.prod)) (hρ1 : ρ ≤ 1) (i : Nat) (hi : i < dims.prod) :
    (∀ p ∈ pts, ∀ b, Walk dims g h v p i b → ∃ t : ℝ, (a.value i).1 = fin t ∧ t ≤ (1 + ρ) * b) ∧
    ∀ t : ℝ, (a.value i).1 = fin t → ∃ p ∈ pts, ∃ b, Walk dims g h v p i b ∧ (1 - ρ) * b ≤ Real.sqrt dims.length * t := by
  have X := I.X
  obtain ⟨U, hU, _⟩ := C17_unique_solution X.problem X.wellPosed
  have hρ0 : 0 ≤ ρ := by
    rw [hρ]; unfold relErr
    have := I.cm0
    positivity
  have acc := C59_accuracy I hcc hfr a ha U hU i hi
  rw [← hρ] at acc
  constructor
  · intro p hp b w
    have hle := exact_le_walk X hU hp (walk_gridX.2 w)
    rcases acc with ⟨h0, _⟩ | ⟨e, t, e1, e2, e3, e4⟩
    · rw [h0] at hle; exact absurd (top_le_iff.1 hle) WithTop.coe_ne_top
    · rw [e1] at hle
      exact ⟨t, e2, le_trans e4 (mul_le_mul_of_nonneg_left (WithTop.coe_le_coe.1 hle) (by linarith))⟩
  · intro t ht
    rcases acc with ⟨_, h1⟩ | ⟨e, t', e1, e2, e3, e4⟩
    · rw [h1] at ht; cases ht
    · rw [e2] at ht; cases ht
      obtain ⟨p, hp, b, hw, hb⟩ := exact_walk X hU hi e1
      refine ⟨p, hp, b, walk_gridX.1 hw, ?_⟩
      have := mul_le_mul_of_nonneg_left hb (show 0 ≤ 1 - ρ by linarith)
      have h4 := mul_le_mul_of_nonneg_left e3 (Real.sqrt_nonneg (dims.length : ℝ))
      nlinarith

/-- non-vacuity: an open 3x3 map with a walk of two steps round a corner, and a result with a finite time there -/
example : ∃ (g : Grid XR), XInput [3,3] g 1 (fun _ => 1) [0] ∧ Fresh g ∧ Walk [3,3] g 1 (fun _ => 1) 0 4 2 ∧ ∃ a, FinalGrid [3,3] g [0] a ∧ ∃ t, a.value 4 = fin t := by
  have X : XInput [3,3] (Grid.create [3,3] (fin 1) (0,0)) 1 (fun _ => 1) [0] :=
    ⟨⟨by decide, by decide, by decide⟩, by decide, rfl, by decide, one_pos, rfl, fun _ _ _ => rfl⟩
  have hfr : Fresh (Grid.create (F := XR) [3,3] (fin 1) (0,0)) := ⟨fun _ => rfl, fun _ => rfl, fun _ => rfl⟩
  have hocc : ∀ i, (Grid.create (F := XR) [3,3] (fin 1) (0,0)).occ i = false := by
    intro i
    have e : eps < 1 := by unfold XR.eps; norm_num
    show decide ((1:ℝ) < eps) = false; exact decide_eq_false (not_lt.2 e.le)
  have w1 : Walk [3,3] (Grid.create (F := XR) [3,3] (fin 1) (0,0)) 1 (fun _ => 1) 0 1 (0 + 1/1) :=
    .step .stay (by decide) ((axisAdjacent_iff X.fits (by decide)).1 (by decide)).2 (hocc 1)
  have w2 : Walk [3,3] (Grid.create (F := XR) [3,3] (fin 1) (0,0)) 1 (fun _ => 1) 0 4 (0 + 1/1 + 1/1) :=
    .step w1 (by decide) ((axisAdjacent_iff X.fits (by decide)).1 (by decide)).2 (hocc 4)
  have w3 : Walk [3,3] (Grid.create (F := XR) [3,3] (fin 1) (0,0)) 1 (fun _ => 1) 0 4 2 := by
    have e : (0 + 1/1 + 1/1 : ℝ) = 2 := by norm_num
    rw [← e]; exact w2
  obtain ⟨⟨n, s, hs, hd⟩, _⟩ := C27_DDQM_exact X hfr noGoal (fin 1) (fin 1)
  have hF : FinalGrid [3,3] (Grid.create (F := XR) [3,3] (fin 1) (0,0)) [0] s.g := .ddqm (by decide) hs hd
  obtain ⟨t, ht, _⟩ := C87_at_most_walk X hfr s.g hF 0 (by simp) 4 2 w3
  exact ⟨_, X, hfr, w3, s.g, hF, t, ht⟩

end FMV
