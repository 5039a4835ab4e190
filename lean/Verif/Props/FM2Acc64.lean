import Verif.Props.GoalF64
import Verif.Props.FM2F64
/-! C100 for FM2: the second wave in doubles. -/
set_option linter.unusedSectionVars false
set_option linter.unusedVariables false
namespace FMV
open Spec Shape XR FMM FM2
variable {R : Rounding} {dims : List Nat} {g : Grid (F64 R)} {h : ℝ} {v : Nat → ℝ} {cm cM : ℝ}

/-- **C100** (speeds of FM2): without saturation distance, in doubles, every free cell of the map FM2 leaves has a speed of at most 1 and at least `cm / (3 √n N cM)`, where `N` is the
number of cells and crossing a cell takes between `cm` and `cM` on the given map. -/
theorem C100_FM2_speeds (M : FM2Map dims (gridX g) h v) (I : DInput dims g h v g.occupied cm cM (2 * cM * dims.prod)) (hcc : cm ≤ cM) {D : F64 R} (hD : D.1 = fin (-1))
    (star : Option Heur) (d : Bool) (gl : Nat) (j : Junk (F64 R)) (start goal : Nat) (G : Grid (F64 R)) (o' : FM2.Obj (F64 R))
    (hc : (configuredFM2 star D d gl j g [start] goal).2.Computes FMM.IsTop (configuredFM2 star D d gl j g [start] goal).1 G o') (i : Nat) (hi : i < dims.prod)
    (ho : g.occ i = false) : ∃ r : ℝ, (G.vel i).1 = fin r ∧ r ≤ 1 ∧ cm ≤ 3 * Real.sqrt dims.length * dims.prod * cM * r := by
  obtain ⟨g1, o1, gv, s, hset, hvm, cfg, n, st, q1, q2, q3, q4, q5, q6, rfl⟩ := C34_second_wave_partial _ _ _ _ _ _ _ _ _ _ _ hc
  obtain ⟨U, hU, _⟩ := C17_unique_solution (obstacleWave dims (gridX g) h v) (obstacleWave_wellPosed M)
  obtain ⟨t, mx, a1, a2, a3, a4, a5, _⟩ := velmap64 M I hcc hU (Or.inl hD) hset hvm
  have hsm : SameMap gv (st.g.setClean false) :=
    (C20_FMM cfg gv s.heap [goal] n st (q4.mono (fun _ _ h => (FM2.stepMin_iff.1 h).any))).trans (setClean_map _ _)
  obtain ⟨r, hr, r0, r1, _, _, r3⟩ := a5 i hi
  obtain ⟨b1, b2, b3, b4, _⟩ := a1 i hi
  obtain ⟨_, c2, _⟩ := a1 mx a2
  refine ⟨r, by rw [SameMap.vel_eq hsm]; exact hr, r1, ?_⟩
  have hcm := I.cm0
  have hb := b4 ho
  have hsq := Real.sqrt_nonneg (dims.length : ℝ)
  have hrat := ratio64 I a4 b1 hb c2
  have hbig : (2:ℝ)^(-1000:ℤ) ≤ t i / t mx := by
    refine le_trans ?_ hrat
    have : (2:ℝ)^(-1000:ℤ) ≤ (2:ℝ)^(-20:ℤ) := zpow_le_zpow_right₀ (by norm_num) (by norm_num)
    refine le_trans this ?_
    norm_num
  have h1 := (r3 hD).2 hbig
  have hq0 : 0 ≤ t i / t mx := div_nonneg b1 a4.le
  have h2 : 9/10 * (t i / t mx) ≤ r := by
    have h3 := (abs_le.1 h1).1
    have : uu * (t i / t mx) ≤ 1/10 * (t i / t mx) := mul_le_mul_of_nonneg_right (by unfold uu; norm_num) hq0
    linarith
  have h4 : 9/10 * t i ≤ r * (2 * cM * dims.prod) := by
    have h5 : 9/10 * t i ≤ r * t mx := by
      have := mul_le_mul_of_nonneg_right h2 a4.le
      rwa [mul_assoc, div_mul_cancel₀ _ a4.ne'] at this
    exact le_trans h5 (mul_le_mul_of_nonneg_left c2 r0)
  have h6 := mul_le_mul_of_nonneg_left h4 hsq
  have h7 : 0 ≤ Real.sqrt dims.length * (r * (2 * cM * dims.prod)) := mul_nonneg hsq (mul_nonneg r0 (by
    have : (0:ℝ) ≤ dims.prod := Nat.cast_nonneg _
    have : 0 ≤ cM := by linarith
    positivity))
  have h8 : 3 * Real.sqrt dims.length * dims.prod * cM * r = 3/2 * (Real.sqrt dims.length * (r * (2 * cM * dims.prod))) := by ring
  rw [h8]
  linarith

/-- what the second wave of FM2 starts from, in doubles -/
theorem FM2.second_input (M : FM2Map dims (gridX g) h v) (I : DInput dims g h v g.occupied cm cM (2 * cM * dims.prod)) (hcc : cm ≤ cM) {D : F64 R} (hD : DistOk h D)
    {d : Bool} {gl : Nat} {j : Junk (F64 R)} {start goal : Nat} (hgo : goal < dims.prod) {G : Grid (F64 R)} {o' : FM2.Obj (F64 R)}
    (hc : (configuredFM2 none D d gl j g [start] goal).2.Computes FMM.IsTop (configuredFM2 none D d gl j g [start] goal).1 G o')
    {r : Nat → ℝ} (hr : ∀ i, i < dims.prod → (G.vel i).1 = fin (r i)) {W : ℝ} (hW : ∀ i, i < dims.prod → g.occ i = false → h ≤ W * r i) (hWh : h ≤ W) {K : Nat}
    (hA : 2 * W * (K + 1) ≤ (2:ℝ)^(300:ℤ)) (hsm : 640 * (dims.length:ℝ)^4 * uu * (2 * W * (K + 1))^2 ≤ h^2) (hmar : 4 * eps ≤ h) :
    ∃ gv, (∀ i, i < dims.prod → gv.occ i = g.occ i) ∧ Fresh gv ∧ (∃ _ : DInput dims gv h r [goal] h W (2 * W * (K + 1)), True) ∧ ∃ (cfg : Cfg (F64 R)) (n : Nat) (st : St (F64 R)),
      cfg.goal = start ∧ cfg.heur = .none ∧ Steps (StepMin cfg) n (FMM.init cfg gv [] [goal]) st ∧ FMM.Done st ∧ ∀ i, G.value i = st.g.value i := by
  obtain ⟨g1, o1, gv, s, hset, hvm, cfg, n, st, q1, q2, q3, q4, q5, q6, rfl⟩ := C34_second_wave_partial _ _ _ _ _ _ _ _ _ _ _ hc
  obtain ⟨U, hU, _⟩ := C17_unique_solution (obstacleWave dims (gridX g) h v) (obstacleWave_wellPosed M)
  obtain ⟨t, mx, a1, a2, a3, a4, a5, a6, a7, a8, a9, k1, k2, k3, k4⟩ := velmap64 M I hcc hU hD hset hvm
  obtain ⟨⟨r', hr', _⟩, hocc, _, _⟩ := C91_speeds M I hcc hD none d gl j [start] goal g1 gv o1 s hset hvm
  have hmap : SameMap gv (st.g.setClean false) :=
    (C20_FMM cfg gv s.heap [goal] n st (q4.mono (fun _ _ h => (FM2.stepMin_iff.1 h).any))).trans (setClean_map _ _)
  have hvel : ∀ i, i < dims.prod → (gv.vel i).1 = fin (r i) := by
    intro i hi; rw [← SameMap.vel_eq hmap]; exact hr i hi
  have hrr : ∀ i, i < dims.prod → r' i = r i := by
    intro i hi
    have h1 := (hr' i hi).1
    rw [hvel i hi] at h1
    injection h1 with h1
    exact h1.symm
  rw [k3] at q4
  have hh : 0 < h := M.hpos
  have hpos : ∀ i, i < dims.prod → g.occ i = false → 0 < r i := by
    intro i hi ho
    have := (hr' i hi).2.2.2.2 ho
    rw [hrr i hi] at this
    exact lt_of_lt_of_le eps_pos this
  refine ⟨gv, hocc, ⟨fun i => (a6 i).1, fun i => (a6 i).2.1, fun i => (a6 i).2.2⟩, ⟨?_, trivial⟩, cfg, n, st, q2, q3 rfl, q4.mono (fun _ _ h => FM2.stepMin_iff.1 h), q5, fun i => rfl⟩
  have hb2 : (1:ℝ) ≤ (2:ℝ)^(200:ℤ) := by
    have : (2:ℝ)^(0:ℤ) ≤ (2:ℝ)^(200:ℤ) := zpow_le_zpow_right₀ (by norm_num) (by norm_num)
    simpa using this
  have hWK : W ≤ 2 * W * (K + 1) := by
    have : (0:ℝ) ≤ K := Nat.cast_nonneg _
    nlinarith
  refine { X := ⟨I.X.fits, I.X.two, a8.trans M.shape, by intro i hi; rw [List.mem_singleton.1 hi]; exact hgo, hh, ?_, ?_⟩, h1 := I.h1, h2 := I.h2, v2 := ?_, cm0 := hh, lo := ?_, hi := ?_,
           cA := hWK, cmA := le_trans hWh hWK, A2 := hA, small := hsm, margin := hmar }
  · show gv.leaf.1 = fin h
    rw [a9]; exact M.leaf
  · intro i hi _
    exact hvel i hi
  · intro i hi ho
    have := (hr' i hi).2.2.1
    rw [hrr i hi] at this
    exact le_trans this hb2
  · intro i hi ho
    rw [hocc i hi] at ho
    rw [le_div_iff₀ (hpos i hi ho)]
    have := (hr' i hi).2.2.1
    rw [hrr i hi] at this
    nlinarith
  · intro i hi ho
    rw [hocc i hi] at ho
    rw [div_le_iff₀ (hpos i hi ho)]
    exact hW i hi ho

/-- **C100** (FM2): in doubles, when `compute()` of FM2 returns, let `r` be the speeds it has left in the grid, none slower than a cell in time `W`; then the time at the start is, up to
the relative error `relErr`, the exact arrival time of a wave that starts at the goal and travels with the speeds `r` around the obstacles of the given map; it is `+inf` exactly if
that is.  `K`: no cell is more than `K` moves away from the goal. -/
theorem C100_FM2 (M : FM2Map dims (gridX g) h v) (I : DInput dims g h v g.occupied cm cM (2 * cM * dims.prod)) (hcc : cm ≤ cM) {D : F64 R} (hD : DistOk h D)
    (d : Bool) (gl : Nat) (j : Junk (F64 R)) (start goal : Nat) (hst : start < dims.prod) (hgo : goal < dims.prod) (G : Grid (F64 R)) (o' : FM2.Obj (F64 R))
    (hc : (configuredFM2 none D d gl j g [start] goal).2.Computes FMM.IsTop (configuredFM2 none D d gl j g [start] goal).1 G o')
    (r : Nat → ℝ) (hr : ∀ i, i < dims.prod → (G.vel i).1 = fin (r i)) (W : ℝ) (hW : ∀ i, i < dims.prod → g.occ i = false → h ≤ W * r i) (hWh : h ≤ W) (K : Nat)
    (hK : Within dims g [goal] K) (hA : 2 * W * (K + 1) ≤ (2:ℝ)^(300:ℤ)) (hsm : 640 * (dims.length:ℝ)^4 * uu * (2 * W * (K + 1))^2 ≤ h^2) (hmar : 4 * eps ≤ h)
    (U : Nat → WithTop ℝ) (hU : Problem.IsSolution { dims := dims, h := h, v := r, obstacle := fun i => g.occ i = true, source := fun i => i = goal } U) :
    RelClose (relErr dims.length h (2 * W * (K + 1))) (U start) (G.value start).1 := by
  obtain ⟨gv, hocc, hfr, ⟨I2, _⟩, cfg, n, st, h1, h2, h3, h4, h5⟩ := FM2.second_input M I hcc hD hgo hc hr hW hWh hA hsm hmar
  have hK2 : Within dims gv [goal] K := by
    intro i hi
    obtain ⟨e, he, hre⟩ := hK i (reachable_congr (fun k hk hf => by rw [← hocc k hk]; exact hf) (fun k hk => hk) hi)
    refine ⟨e, he, ?_⟩
    clear he hi
    induction hre with
    | start a b => exact .start a b
    | move a b c e ih => exact .move ih b (by rw [hocc _ b]; exact c) e
  have hap : StartsApart dims gv [goal] := by
    intro i hi j' hj _ hadj
    rw [List.mem_singleton.1 hi, List.mem_singleton.1 hj] at hadj
    obtain ⟨k, _, _, e, _⟩ := hadj
    omega
  have hU2 : I2.X.problem.IsSolution U := by
    intro i hi
    obtain ⟨e1, e2, e3⟩ := hU i hi
    have ho : (gridX gv).occ i = g.occ i := hocc i hi
    refine ⟨fun hs => e1 (List.mem_singleton.1 hs), fun hs hob => e2 (fun e => hs (List.mem_singleton.2 e)) ?_, fun hs hob => e3 (fun e => hs (List.mem_singleton.2 e)) ?_⟩
    · show g.occ i = true
      rw [← ho]; exact hob
    · show ¬ g.occ i = true
      rw [← ho]; exact hob
  have := C100_goal K I2 hWh hK2 hfr hap U hU2 cfg h2 (by rw [h1]; exact hst) n st h3 h4
  rw [h1] at this
  rw [h5]
  exact this

/-- non-vacuity: in the corridor, in any rounding mode, FM2 without saturation distance returns; all hypotheses of `C100_FM2` hold with `W = 50`, and the error is below one part in a thousand -/
example (R : Rounding) (gl : Nat) (j : Junk (F64 R)) (D : F64 R) (hD : D.1 = fin (-1)) : ∃ (G : Grid (F64 R)) (o' : FM2.Obj (F64 R)) (r : Nat → ℝ) (U : Nat → WithTop ℝ),
    (configuredFM2 none D false gl j (corridor64 R) [1] 4).2.Computes FMM.IsTop (configuredFM2 none D false gl j (corridor64 R) [1] 4).1 G o' ∧
    (∀ i, i < 10 → (G.vel i).1 = fin (r i)) ∧ (∀ i, i < 10 → (corridor64 R).occ i = false → 1 ≤ 50 * r i) ∧ Within [5,2] (corridor64 R) [4] 9 ∧
    2 * 50 * (((9:ℕ):ℝ) + 1) ≤ (2:ℝ)^(300:ℤ) ∧ 640 * ((2:ℕ):ℝ)^4 * uu * (2 * 50 * (((9:ℕ):ℝ) + 1))^2 ≤ 1^2 ∧ 4 * eps ≤ 1 ∧
    Problem.IsSolution { dims := [5,2], h := 1, v := r, obstacle := fun i => (corridor64 R).occ i = true, source := fun i => i = 4 } U ∧
    relErr 2 1 (2 * 50 * (((9:ℕ):ℝ) + 1)) < 1 / 10^3 ∧ RelClose (1 / 10^3) (U 1) (G.value 1).1 := by
  have M := corridor64_map R
  have I := corridor64_input R
  obtain ⟨G, o', hc⟩ := C91_returns M I (le_refl _) (by simp [corridor64]) (Or.inl hD) none gl j 1 4 (corridor64_valid R) (by decide)
  have hsp := C100_FM2_speeds M I (le_refl _) hD none false gl j 1 4 G o' hc
  obtain ⟨g1, o1, gv, s, hset, hvm, cfg, n, st, q1, q2, q3, q4, q5, q6, hG⟩ := C34_second_wave_partial _ _ _ _ _ _ _ _ _ _ _ hc
  obtain ⟨⟨r, hr, _⟩, hocc, _, _⟩ := C91_speeds M I (le_refl _) (Or.inl hD) none false gl j [1] 4 g1 gv o1 s hset hvm
  have hmap : SameMap gv G := by
    rw [hG]
    exact (C20_FMM cfg gv s.heap [4] n st (q4.mono (fun _ _ h => (FM2.stepMin_iff.1 h).any))).trans (setClean_map _ _)
  have hv : ∀ i, i < 10 → (G.vel i).1 = fin (r i) := by
    intro i hi; rw [SameMap.vel_eq hmap]; exact (hr i hi).1
  have hsq : Real.sqrt (([5,2] : List Nat).length : ℝ) ≤ 5/3 := by
    rw [Real.sqrt_le_left (by norm_num)]; norm_num
  have hW : ∀ i, i < 10 → (corridor64 R).occ i = false → 1 ≤ 50 * r i := by
    intro i hi ho
    obtain ⟨x, hx, _, h1⟩ := hsp i hi ho
    rw [hv i hi] at hx
    injection hx with hx
    rw [← hx] at h1
    have h0 : 0 ≤ r i := (hr i hi).2.1
    have e : (([5,2] : List Nat).prod : ℝ) = 10 := by norm_num
    rw [e] at h1
    have h2 : Real.sqrt (([5,2] : List Nat).length : ℝ) * r i ≤ 5/3 * r i := mul_le_mul_of_nonneg_right hsq h0
    have e2 : 3 * Real.sqrt (([5,2] : List Nat).length : ℝ) * 10 * 1 * r i = 30 * (Real.sqrt (([5,2] : List Nat).length : ℝ) * r i) := by ring
    rw [e2] at h1
    linarith
  have hin : Within [5,2] (corridor64 R) [4] 9 :=
    DInput.within_cells (v := fun _ => 1) (h := 1) ⟨I.X.fits, I.X.two, I.X.shape, by decide, one_pos, M.leaf, M.speed⟩
  have hb3 : 2 * 50 * (((9:ℕ):ℝ) + 1) ≤ (2:ℝ)^(300:ℤ) := by
    have : (2:ℝ)^(10:ℤ) ≤ (2:ℝ)^(300:ℤ) := zpow_le_zpow_right₀ (by norm_num) (by norm_num)
    refine le_trans ?_ this
    norm_num
  have hsm : 640 * ((2:ℕ):ℝ)^4 * uu * (2 * 50 * (((9:ℕ):ℝ) + 1))^2 ≤ 1^2 := by unfold uu; norm_num
  have hmar : 4 * eps ≤ 1 := by unfold XR.eps; norm_num
  have hposr : ∀ i, i < 10 → (corridor64 R).occ i = false → 0 < r i := by
    intro i hi ho; have := hW i hi ho; linarith
  obtain ⟨U, hU, _⟩ := C17_unique_solution { dims := [5,2], h := 1, v := r, obstacle := fun i => (corridor64 R).occ i = true, source := fun i => i = 4 }
    ⟨show 2 ≤ ([5,2] : List Nat).length by decide, show ∀ x ∈ ([5,2] : List Nat), 0 < x by decide, show ([5,2] : List Nat).prod ≤ 2^31 by decide, one_pos, fun i hi ho => hposr i hi (by simpa using ho)⟩
  have herr : relErr 2 1 (2 * 50 * (((9:ℕ):ℝ) + 1)) < 1 / 10^3 := by unfold relErr; norm_num
  refine ⟨G, o', r, U, hc, hv, hW, hin, hb3, hsm, hmar, hU, herr, ?_⟩
  have hfin := C100_FM2 M I (le_refl _) (Or.inl hD) false gl j 1 4 (by decide) (by decide) G o' hc r hv 50 hW (by norm_num) 9 hin hb3 hsm hmar U hU
  rcases hfin with h1 | ⟨e, x, h1, h2, h3, h4⟩
  · exact Or.inl h1
  · have he : 0 ≤ e := by
      by_contra hneg
      have hr0 : relErr 2 1 (2 * 50 * (((9:ℕ):ℝ) + 1)) > 0 := by unfold relErr; norm_num
      have h3' : (1 - relErr 2 1 (2 * 50 * (((9:ℕ):ℝ) + 1))) * e ≤ x := h3
      have h4' : x ≤ (1 + relErr 2 1 (2 * 50 * (((9:ℕ):ℝ) + 1))) * e := h4
      nlinarith
    refine Or.inr ⟨e, x, h1, h2, le_trans ?_ h3, le_trans h4 ?_⟩
    · exact mul_le_mul_of_nonneg_right (by show _ ≤ 1 - relErr 2 1 (2 * 50 * (((9:ℕ):ℝ) + 1)); linarith) he
    · exact mul_le_mul_of_nonneg_right (by show 1 + relErr 2 1 (2 * 50 * (((9:ℕ):ℝ) + 1)) ≤ _; linarith) he
end FMV
