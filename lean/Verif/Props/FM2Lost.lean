import Verif.Props.FM2Reach
/-!
# C90: FM2 can lose the start when speeds differ extremely
-/
set_option linter.unusedSectionVars false
set_option linter.unusedVariables false
namespace FMV
open Spec Shape XR FMM

/-- a speed just above `COMP_MARGIN` -/
noncomputable def slow : ℝ := 23 / 10^12

/-- the speeds of `slowRoom` -/
noncomputable def slowV (i : Nat) : ℝ := if i = 1 ∨ i = 6 then 1 else slow

/-- A corridor of 5 x 2 cells with a wall in its first column, speed 1 in the second and a very low speed in the other columns. -/
noncomputable def slowRoom : Grid XR :=
  { Grid.create [5,2] (fin 1) (0,0) with
    cells := fun i => { (Cell.default : Cell XR) with index := i, occupancy := if i ∈ ([0,5] : List Nat) then fin 0 else fin (slowV i) }, occupied := [0,5] }

theorem eps_lt_slowV (i : Nat) : eps ≤ slowV i := by
  unfold slowV slow eps; split <;> norm_num

theorem slowRoom_occ (i : Nat) : slowRoom.occ i = true ↔ i ∈ ([0,5] : List Nat) := by
  have h1 : (Arith.lt (fin 0) (Arith.margin : XR)) = true := by
    show XR.lt (fin 0) (fin eps) = true
    simp [XR.lt, eps_pos]
  have h2 : (Arith.lt (fin (slowV i)) (Arith.margin : XR)) = false := by
    show XR.lt (fin (slowV i)) (fin eps) = false
    simp [XR.lt, eps_lt_slowV i]
  unfold slowRoom Grid.occ Cell.isOccupied
  dsimp only
  split
  · next h => simp [h, h1]
  · next h => simp [h, h2]

theorem slowRoom_free {i : Nat} (h : i ∉ ([0,5] : List Nat)) : slowRoom.occ i = false := by
  cases hx : slowRoom.occ i with
  | false => rfl
  | true => exact absurd ((slowRoom_occ i).1 hx) h

theorem slowRoom_map : FM2Map [5,2] slowRoom 1 slowV where
  dims2 := by decide
  two := by decide
  cells := by decide
  shape := rfl
  hpos := one_pos
  leaf := rfl
  speed := by
    intro i _ ho
    have h1 : ¬ (i ∈ ([0,5] : List Nat)) := fun h => by rw [(slowRoom_occ i).2 h] at ho; cases ho
    unfold slowRoom Grid.vel
    dsimp only
    rw [if_neg h1]
  clean := fun _ i => ⟨rfl, rfl, rfl⟩
  listed := by
    intro i
    rw [slowRoom_occ]
    constructor
    · intro h
      refine ⟨?_, h⟩
      rcases List.mem_cons.1 h with rfl | h
      · decide
      · rw [List.mem_singleton.1 h]; decide
    · exact fun h => h.2
  obstacle := ⟨0, by decide, (slowRoom_occ 0).2 (by decide)⟩
  free := ⟨1, by decide, slowRoom_free (by decide)⟩

theorem slowRoom_valid : ValidProblem slowRoom.cleanGrid [1] 4 where
  clean := rfl
  some := by simp
  start := by
    intro p hp
    obtain rfl : 1 = p := by simpa using hp
    rw [SameMap.occ_eq (FM2.clean_map _)]
    exact slowRoom_free (by decide)
  free := by
    intro _
    rw [SameMap.occ_eq (FM2.clean_map _)]
    exact slowRoom_free (by decide)
  apart := by simp

theorem slowRoom_nbrs {i k : Nat} (hi : i < 10) (h : AxisAdjacent ((Shape.mk' [5,2]).idx2coord i) ((Shape.mk' [5,2]).idx2coord k)) (hk : k < 10) :
    k ∈ (Shape.mk' [5,2]).nbrs i :=
  (FMM.axisAdjacent_iff (dims := [5,2]) ⟨by decide, by decide, by decide⟩ hi).2 ⟨hk, h⟩

/-- every walk from the wall to the far end of the corridor enters two slow cells -/
theorem slowRoom_walk {p : Nat} (hp : p = 0 ∨ p = 5) {b : ℝ} (w : Walk [5,2] slowRoom 1 slowV p 4 b) : 2 / slow ≤ b := by
  have hs : (0:ℝ) < slow := by unfold slow; norm_num
  have hnn : ∀ {q : Nat} {b : ℝ}, Walk [5,2] slowRoom 1 slowV p q b → 0 ≤ b := by
    intro q b w
    induction w with
    | stay => exact le_refl _
    | @step q i b _ _ _ _ ih =>
      have : 0 ≤ 1 / slowV i := (one_div_pos.2 (lt_of_lt_of_le eps_pos (eps_lt_slowV i))).le
      linarith
  have hpN : p < 10 := by rcases hp with rfl | rfl <;> norm_num
  have hlt : ∀ {q : Nat} {b : ℝ}, Walk [5,2] slowRoom 1 slowV p q b → q < 10 := by
    intro q b w
    cases w with
    | stay => exact hpN
    | step _ h _ _ => exact h
  cases w with
  | stay => rcases hp with h | h <;> cases h
  | @step q _ b1 w1 _ adj ho =>
    have hq := hlt w1
    have hmem := slowRoom_nbrs hq adj (by decide)
    have hq' : q = 3 ∨ q = 9 := by
      have : ∀ q < 10, 4 ∈ (Shape.mk' [5,2]).nbrs q → q = 3 ∨ q = 9 := by decide
      exact this q hq hmem
    have e4 : slowV 4 = slow := by unfold slowV; norm_num
    cases w1 with
    | stay => exfalso; rcases hp with h | h <;> rw [h] at hq' <;> rcases hq' with h | h <;> cases h
    | @step q2 _ b2 w2 _ _ _ =>
      have eq : slowV q = slow := by rcases hq' with rfl | rfl <;> (unfold slowV; norm_num)
      have := hnn w2
      rw [e4, eq]
      have e : 2 / slow = 1 / slow + 1 / slow := by ring
      linarith

/-- **C90**, the condition on the speeds cannot be dropped: in this corridor, whose free cells all have speeds above `COMP_MARGIN` and whose start and goal are connected through free cells, FM2
and FM2* run to the end and leave the start with an infinite arrival time: its normalised speed is below `COMP_MARGIN`, so that the second wave takes it for an obstacle. -/
theorem C90_refuted_contrast (star : Option Heur) (gl : Nat) (j : Junk XR) :
    ValidProblem slowRoom.cleanGrid [1] 4 ∧
    Reachable [5,2] (Shape.mk' [5,2]).idx2coord (fun i => slowRoom.occ i = false) (fun i => i = 4) 1 ∧
    (∃ G o', (configuredFM2 star (fin (-1)) false gl j slowRoom [1] 4).2.Computes FMM.IsTop (configuredFM2 star (fin (-1)) false gl j slowRoom [1] 4).1 G o') ∧
    ∀ G o', (configuredFM2 star (fin (-1)) false gl j slowRoom [1] 4).2.Computes FMM.IsTop (configuredFM2 star (fin (-1)) false gl j slowRoom [1] 4).1 G o' →
      G.value 1 = pinf := by
  have M := slowRoom_map
  have f : Fits [5,2] (2^31+1) := ⟨by decide, by decide, by decide⟩
  have adj : ∀ i k, i < 10 → k ∈ (Shape.mk' [5,2]).nbrs i → AxisAdjacent ((Shape.mk' [5,2]).idx2coord i) ((Shape.mk' [5,2]).idx2coord k) :=
    fun i k hi hk => ((FMM.axisAdjacent_iff f (i := i) hi).1 hk).2
  refine ⟨slowRoom_valid, ?_, C34_returns M (by simp [slowRoom]) star (Or.inl rfl) gl j 1 4 slowRoom_valid (by decide), ?_⟩
  · have r4 : Reachable [5,2] (Shape.mk' [5,2]).idx2coord (fun i => slowRoom.occ i = false) (fun i => i = 4) 4 := .start rfl (by decide)
    have r3 := Reachable.move r4 (j := 3) (by decide) (slowRoom_free (by decide)) (adj 4 3 (by decide) (by decide))
    have r2 := Reachable.move r3 (j := 2) (by decide) (slowRoom_free (by decide)) (adj 3 2 (by decide) (by decide))
    exact Reachable.move r2 (j := 1) (by decide) (slowRoom_free (by decide)) (adj 2 1 (by decide) (by decide))
  intro G o' hc
  obtain ⟨g1, o1, gv, s, hset, hvm, cfg, n, st, q1, q2, q3, q4, q5, q6, rfl⟩ := C34_second_wave_partial _ _ _ _ _ _ _ _ _ _ _ hc
  obtain ⟨U, hU, _⟩ := C17_unique_solution (obstacleWave [5,2] slowRoom 1 slowV) (obstacleWave_wellPosed M)
  obtain ⟨t, mx, a1, a2, a3, a4, a5, a6, a7, a8, a9, k1, k2, k3, k4⟩ := FM2.velmap_spec M hU (Or.inl rfl) hset hvm
  rw [k3] at q4
  have hw1 : ∀ i, i < 10 → gv.vel i = fin (t i / t mx) := fun i hi => by rw [a5 i hi, if_pos rfl]
  have X : XInput [5,2] gv 1 (fun i => t i / t mx) [4] :=
    ⟨f, M.two, a8.trans M.shape, by intro i hi; rw [List.mem_singleton.1 hi]; decide, M.hpos, a9.trans M.leaf, fun i hi _ => hw1 i hi⟩
  have hfr : Fresh gv := ⟨fun i => (a6 i).1, fun i => (a6 i).2.1, fun i => (a6 i).2.2⟩
  -- the first wave
  have X0 := FM2.input M (SameMap.refl slowRoom)
  have hs : (0:ℝ) < slow := by unfold slow; norm_num
  have hU1 : U 1 ≤ ((1 : ℝ) : WithTop ℝ) := by
    have w : Walk [5,2] slowRoom 1 slowV 0 1 (0 + 1 / slowV 1) := .step .stay (by decide) (adj 0 1 (by decide) (by decide)) (slowRoom_free (by decide))
    have := exact_le_walk X0 (obstacleWave_list M hU) (p := 0) (by simp [slowRoom]) w
    have e : (0:ℝ) + 1 / slowV 1 = 1 := by unfold slowV; norm_num
    rwa [e] at this
  have ht1 : t 1 ≤ 1 + 10 * (2 * eps) := by
    have h1 := (a1 1 (by decide)).2.2.2.2
    have h2 := le_trans h1 (add_le_add_left hU1 _)
    rw [← WithTop.coe_add] at h2
    have h3 := WithTop.coe_le_coe.1 h2
    norm_num at h3 ⊢
    exact h3
  have ht4 : 2 / slow ≤ Real.sqrt 2 * t 4 := by
    have h1 := (a1 4 (by decide)).2.2.2.1
    obtain ⟨r, hr⟩ := WithTop.ne_top_iff_exists.1 (ne_top_of_le_ne_top WithTop.coe_ne_top h1)
    rw [← hr] at h1
    have h1 := WithTop.coe_le_coe.1 h1
    obtain ⟨p, hp, b, hw, hb⟩ := exact_walk X0 (obstacleWave_list M hU) (i := 4) (by decide) hr.symm
    have hp : p = 0 ∨ p = 5 := by simpa [slowRoom] using hp
    have h2 := slowRoom_walk hp hw
    have e : ((([5,2] : List Nat).length : ℕ) : ℝ) = 2 := by norm_num
    rw [e] at hb
    exact le_trans h2 (le_trans hb (mul_le_mul_of_nonneg_left h1 (Real.sqrt_nonneg _)))
  have ht4' : 4/3 / slow ≤ t mx := by
    have hsq : Real.sqrt 2 ≤ 3/2 := by rw [Real.sqrt_le_iff]; norm_num
    have h0 := (a1 4 (by decide)).1
    have h1 := a3 4 (by decide)
    have h2 : 2 / slow ≤ 3/2 * t mx := le_trans ht4 (le_trans (mul_le_mul_of_nonneg_right hsq h0) (by linarith))
    have e : 4/3 / slow = 2/3 * (2 / slow) := by ring
    rw [e]; linarith
  have hlow : t 1 / t mx < eps := by
    rw [div_lt_iff₀ a4]
    refine lt_of_le_of_lt ht1 (lt_of_lt_of_le ?_ (mul_le_mul_of_nonneg_left ht4' eps_pos.le))
    unfold slow eps; norm_num
  have hobs : gv.occ 1 = true := by
    have := hw1 1 (by decide)
    unfold Grid.vel at this
    unfold Grid.occ Cell.isOccupied
    rw [this]
    show XR.lt (fin _) (fin eps) = true
    simp [XR.lt, hlow]
  obtain ⟨U2, hU2, _⟩ := C17_unique_solution X.problem X.wellPosed
  have htop : U2 1 = ⊤ := (X.exSol hU2 1 (by decide)).2.1 (by decide) hobs
  obtain ⟨h1, h2⟩ := C18_FMM X hfr U2 hU2 cfg n st (q4.mono (fun _ _ h => (FM2.stepMin_iff.1 h).lib)) 1 (by decide)
  rw [htop] at h2
  show st.g.value 1 = pinf
  rcases h1 with h1 | ⟨r, _, h1⟩
  · exact h1
  · rw [h1] at h2; exact absurd (top_le_iff.1 h2) WithTop.coe_ne_top

end FMV
