import Verif.Props.F64Accuracy
import Verif.Props.SweepBound
import Verif.Props.GoalF64
/-!
# C102: a budget of one sweep per cell in double precision
-/
set_option linter.unusedSectionVars false
set_option linter.unusedVariables false
namespace FMV
open XR Spec Shape FMM F64
open Classical

namespace SB64
open FSM
variable {R : Rounding} {dims : List Nat} {g : Grid (F64 R)} {h : ℝ} {v : Nat → ℝ} {pts : List Nat} {cm cM : ℝ} {A : ℝ} {U : Nat → WithTop ℝ}

/-- what a visit of cell `i` achieves -/
def Post (I : DInput dims g h v pts cm cM A) (w : ℝ) (solve : FSM.St (F64 R) → Nat → FSM.St (F64 R)) (J : Grid (F64 R) → Prop) : Prop :=
  ∀ t i, i < dims.prod → J t.g → g.occ i = false →
    J (solve t i).g ∧ (∀ k, tf (solve t i).g k ≤ tf t.g k) ∧ I.X.Conv (tf (solve t i).g) (2 * I.β) i

theorem tried_le (I : DInput dims g h v pts cm cM A) {w : ℝ} (w0 : 0 ≤ w) (hwA : w * dims.prod ≤ A) {g1 g2 : Grid (F64 R)} {i : Nat} {b : Bool} (J : I.TInv w g1)
    (ht : Tried eikS g1 g2 i b) (hi : i < dims.prod) (ho : g.occ i = false) (k : Nat) : tf g2 k ≤ tf g1 k := by
  obtain ⟨hgd, hap⟩ := I.eik J.map J.good (J.le I w0 hwA) hi ho
  by_cases hk : k = i
  · subst hk
    cases b with
    | true =>
      obtain ⟨hb, hv⟩ := ht.yes rfl
      rw [tf_eq g2, hv]
      exact (DInput.accept hgd (J.good k) hb).le
    | false => rw [tf_eq, tf_eq, ht.no rfl]
  · rw [tf_eq, tf_eq, ht.other k hk]

theorem accept_conv (I : DInput dims g h v pts cm cM A) {w : ℝ} (w0 : 0 ≤ w) (hwA : w * dims.prod ≤ A) {g1 g2 : Grid (F64 R)} {i : Nat} (J : I.TInv w g1)
    (ht : Tried eikS g1 g2 i true) (hi : i < dims.prod) (ho : g.occ i = false) : I.X.Conv (tf g2) (2 * I.β) i := by
  obtain ⟨hgd, hap⟩ := I.eik J.map J.good (J.le I w0 hwA) hi ho
  obtain ⟨hb, hv⟩ := ht.yes rfl
  have hTi : tf g2 i = toT (eikS g1 i).1.1 := by rw [tf_eq, hv]
  have hlt : toT (eikS g1 i).1.1 < tf g1 i := DInput.accept hgd (J.good i) hb
  have hβ := I.β_pos
  intro Y hY
  have hTo : ∀ k, k ≠ i → tf g2 k = tf g1 k := by intro k hk; rw [tf_eq, tf_eq, ht.other k hk]
  rw [I.X.mins_congr hi hTo] at hY
  rw [hTi]
  by_cases hY2 : (Y : WithTop ℝ) < tf g1 i
  · refine le_trans (hap.upper Y hY2 hY) ?_
    have : Y + I.β ≤ Y + 2 * I.β := by linarith
    exact_mod_cast this
  · refine le_trans hlt.le (le_trans (not_lt.1 hY2) ?_)
    have : Y ≤ Y + 2 * I.β := by linarith
    exact_mod_cast this

theorem conv_congr {I : DInput dims g h v pts cm cM A} {g1 g2 : Grid (F64 R)} (hv : ∀ k, g2.value k = g1.value k) {δ : ℝ} {i : Nat} (hc : I.X.Conv (tf g1) δ i) :
    I.X.Conv (tf g2) δ i := by
  have : tf g2 = tf g1 := by funext k; rw [tf_eq, tf_eq, hv]
  rw [this]; exact hc

theorem post_FSM (I : DInput dims g h v pts cm cM (2 * cM * dims.prod)) (hcc : cm ≤ cM) (goal : Nat) :
    Post I (2 * cM) (solveFSM goal eikS) (I.TInv (2 * cM)) := by
  intro t i hi J ho
  obtain ⟨b, hT, _⟩ := (solveFSM_solver (F := F64 R) goal eikS).tried t i
  refine ⟨DInput.TInv.tried I (I.wpos hcc) (I.wok hcc) (le_refl _) J hT hi ho, tried_le I (I.wpos hcc) (le_refl _) J hT hi ho, ?_⟩
  rcases solveFSM_cases goal eikS t i with ⟨hb, e⟩ | ⟨hb, e, _⟩
  · refine accept_conv I (I.wpos hcc) (le_refl _) J ⟨hT.map, hT.other, fun _ => ⟨hb, ?_⟩, by simp⟩ hi ho
    rw [e]; simp [Grid.value_setValue]
  · exact conv_congr (I := I) (g1 := t.g) (fun k => by rw [e]; simp) (I.conv_of_reject (I.wpos hcc) (le_refl _) J hi ho hb)

theorem post_LSM (I : DInput dims g h v pts cm cM (2 * cM * dims.prod)) (hcc : cm ≤ cM) (goal : Nat) :
    Post I (2 * cM) (solveLSM goal eikS) (I.KInv64 (2 * cM)) := by
  intro t i hi J ho
  obtain ⟨b, hT, _⟩ := (solveLSM_solver (F := F64 R) goal eikS).tried t i
  have hot : t.g.occ i = false := by rw [← ho]; exact SameMap.occ_eq J.t.map i
  refine ⟨I.lsm_solve hcc goal J hi hot, tried_le I (I.wpos hcc) (le_refl _) J.t hT hi ho, ?_⟩
  rcases solveLSM_cases goal eikS t i with ⟨hst, e⟩ | ⟨hopn, hb, e⟩ | ⟨hopn, hb, e, _⟩
  · rw [e]; exact J.lock i hi ho ((J.st i hi).resolve_left hst)
  · refine accept_conv I (I.wpos hcc) (le_refl _) J.t ⟨hT.map, hT.other, fun _ => ⟨hb, ?_⟩, by simp⟩ hi ho
    rw [e]; simp [Grid.value_setValue, unlock_value]
  · exact conv_congr (I := I) (g1 := t.g) (fun k => by rw [e]; simp) (I.conv_of_reject (I.wpos hcc) (le_refl _) J.t hi ho hb)

/-- the factor of `accurate` -/
noncomputable def fac (I : DInput dims g h v pts cm cM A) : ℝ := 1 + 2 * dims.length * (I.θ + 2 * I.β) / cm

/-- cell `i` exceeds its exact time by at most the factor -/
def Near (I : DInput dims g h v pts cm cM A) (U : Nat → WithTop ℝ) (g' : Grid (F64 R)) (i : Nat) : Prop := tf g' i ≤ scl (fac I) (U i)

theorem occ_near (I : DInput dims g h v pts cm cM A) (hU : I.X.problem.IsSolution U) {w : ℝ} {g' : Grid (F64 R)} (J : I.TInv w g') {i : Nat} (hi : i < dims.prod)
    (ho : g.occ i = true) : Near I U g' i := by
  obtain ⟨e1, e2, _⟩ := I.X.exSol hU i hi
  unfold Near
  by_cases hs : i ∈ pts
  · rw [J.src i hs, e1 hs, scl_zero]
  · rw [e2 hs ho]; simp

theorem conv_near (I : DInput dims g h v pts cm cM A) (hU : I.X.problem.IsSolution U) {w : ℝ} {g' : Grid (F64 R)} (J : I.TInv w g') {i : Nat} (hi : i < dims.prod)
    (hc : I.X.Conv (tf g') (2 * I.β) i) (hpre : ∀ j, j < dims.prod → U j < U i → Near I U g' j) : Near I U g' i :=
  I.X.step_rel hU (by have := I.β_pos; have := I.θ_nonneg; linarith) I.cm0 I.lo hi (fun hs => le_of_eq (J.src i hs)) (fun _ _ Y hY => (hc Y hY).trans (by
    have h1 := I.θ_nonneg
    have : Y + 2 * I.β ≤ Y + (I.θ + 2 * I.β) := by linarith
    exact_mod_cast this)) hpre

theorem sweep_near (I : DInput dims g h v pts cm cM A) (hU : I.X.problem.IsSolution U) {w : ℝ} {solve : FSM.St (F64 R) → Nat → FSM.St (F64 R)} {J : Grid (F64 R) → Prop}
    (hP : Post I w solve J) (hJS : ∀ g', J g' → I.TInv w g') {incs : List Int} (hd : IsDirs dims.length incs) (t : FSM.St (F64 R)) (hJ : J t.g) (n : Nat)
    (hpre : ∀ j, j < dims.prod → XInput.rank dims.prod U j < n → Near I U t.g j) :
    ∀ (l1 l2 : List Nat), sweepOrder dims incs = l1 ++ l2 →
      J (l1.foldl (visit solve) t).g ∧ (∀ k, tf (l1.foldl (visit solve) t).g k ≤ tf t.g k) ∧
      (∀ i ∈ l1, XInput.rank dims.prod U i ≤ n → Near I U (l1.foldl (visit solve) t).g i) := by
  have hne := dims_ne I.X.fits
  intro l1
  induction l1 using List.reverseRecOn with
  | nil => intro l2 _; exact ⟨hJ, fun k => le_refl _, by simp⟩
  | append_singleton l i ih =>
    intro l2 hsp
    rw [List.append_assoc, List.singleton_append] at hsp
    obtain ⟨j1, j2, j3⟩ := ih (i :: l2) hsp
    have hi : i < dims.prod := by
      rw [← mem_sweepOrder hne hd, hsp]; simp
    rw [List.foldl_append]
    set u := l.foldl (visit solve) t with hu
    have hI := hJS _ j1
    have hocc : u.g.occ i = g.occ i := SameMap.occ_eq hI.map i
    show J (visit solve u i).g ∧ _
    cases ho : g.occ i with
    | true =>
      have hvis : visit solve u i = u := by unfold visit; rw [hocc, ho]; rfl
      rw [show List.foldl (visit solve) u [i] = u from hvis, hvis]
      refine ⟨j1, j2, ?_⟩
      intro k hk2 hrk
      rcases List.mem_append.1 hk2 with hk2 | hk2
      · exact j3 k hk2 hrk
      · rw [List.mem_singleton] at hk2
        subst hk2
        exact occ_near I hU hI hi ho
    | false =>
      have hvis : visit solve u i = solve u i := by unfold visit; rw [hocc, ho]; rfl
      rw [show List.foldl (visit solve) u [i] = solve u i from hvis, hvis]
      obtain ⟨p1, p2, p3⟩ := hP u i hi j1 ho
      refine ⟨p1, fun k => (p2 k).trans (j2 k), ?_⟩
      intro k hk2 hrk
      rcases List.mem_append.1 hk2 with hk2 | hk2
      · exact (p2 k).trans (j3 k hk2 hrk)
      · rw [List.mem_singleton] at hk2
        subst hk2
        refine conv_near I hU (hJS _ p1) hi p3 ?_
        intro j hj hlt
        have := XInput.rank_lt (U := U) (i := k) hj hlt
        exact (p2 j).trans ((j2 j).trans (hpre j hj (by omega)))

/-- cells without a predecessor -/
theorem rank_zero (I : DInput dims g h v pts cm cM A) (hU : I.X.problem.IsSolution U) {w : ℝ} {g' : Grid (F64 R)} (J : I.TInv w g') {i : Nat} (hi : i < dims.prod)
    (h0 : XInput.rank dims.prod U i = 0) : Near I U g' i := by
  cases ho : g.occ i with
  | true => exact occ_near I hU J hi ho
  | false =>
    by_cases hs : i ∈ pts
    · unfold Near
      rw [J.src i hs, ((I.X.exSol hU) i hi).1 hs, scl_zero]
    · obtain ⟨e1, e2, e3⟩ := I.X.exSol hU i hi
      rcases e3 hs (by simp; exact ho) with ⟨r, f1, f2⟩ | ⟨f1, _⟩
      · exfalso
        have hcc := I.X.csq hi ho
        rw [← f2] at hcc
        obtain ⟨t, ht, hlt⟩ := residL_pos_lt hcc
        obtain ⟨a, ha, hta⟩ := XInput.mem_mins ht WithTop.coe_ne_top
        have haN := FMM.nbr_lt I.X.fits hi ha
        have := XInput.rank_lt (U := U) (i := i) haN (by rw [← hta, f1]; exact_mod_cast hlt)
        omega
      · unfold Near; rw [f1]; simp

theorem run_near (I : DInput dims g h v pts cm cM A) (hU : I.X.problem.IsSolution U) {w : ℝ} {solve : FSM.St (F64 R) → Nat → FSM.St (F64 R)} {J : Grid (F64 R) → Prop}
    (S : Solver eikS solve) (hP : Post I w solve J) (hJS : ∀ g', J g' → I.TInv w g') {m n : Nat} {a t : FSM.St (F64 R)} (hs : Steps (FSM.Step m solve) n a t) (hJ : J a.g)
    (hd : IsDirs dims.length a.incs) :
    J t.g ∧ IsDirs dims.length t.incs ∧ (∀ i, i < dims.prod → XInput.rank dims.prod U i ≤ n → Near I U t.g i) := by
  induction hs with
  | refl => exact ⟨hJ, hd, fun i hi h0 => rank_zero I hU (hJS _ hJ) hi (by omega)⟩
  | @tail n s1 t1 u1 h1 h2 ih =>
    obtain ⟨q1, q2, q3⟩ := ih hJ hd
    obtain ⟨hnd, rfl⟩ := h2
    have hsh : t1.g.shape.dims = dims := by
      have : t1.g.shape = Shape.mk' dims := (hJS _ q1).map.shape.trans I.X.shape
      rw [this]; rfl
    have hne := dims_ne I.X.fits
    have hdirs := bump_isDirs q2
    obtain ⟨p1, p2, p3⟩ := sweep_near I hU hP hJS hdirs (begun t1) q1 (n+1) (fun j hj hr => q3 j hj (by omega)) _ [] (List.append_nil _).symm
    have hinc := S.sweep_incs t1
    rw [sweep_eq, hsh] at hinc ⊢
    exact ⟨p1, by rw [hinc]; exact hdirs, fun i hi hr => p3 i ((mem_sweepOrder hne hdirs).2 hi) hr⟩

theorem run_accurate (I : DInput dims g h v pts cm cM (2 * cM * dims.prod)) (hU : I.X.problem.IsSolution U) {solve : FSM.St (F64 R) → Nat → FSM.St (F64 R)}
    {J : Grid (F64 R) → Prop} (S : Solver eikS solve) (hP : Post I (2 * cM) solve J) (hJS : ∀ g', J g' → I.TInv (2 * cM) g') {m n : Nat} {a t : FSM.St (F64 R)}
    (hs : Steps (FSM.Step m solve) n a t) (hJ : J a.g) (hd : IsDirs dims.length a.incs) (hn : dims.prod ≤ n) (i : Nat) (hi : i < dims.prod) :
    RelClose (relErr dims.length cm (2 * cM * dims.prod)) (U i) (t.g.value i).1 := by
  obtain ⟨q1, _, q3⟩ := run_near I hU S hP hJS hs hJ hd
  have T := hJS _ q1
  exact I.relClose hU (T.good i) hi (T.low U hU i hi) (q3 i hi ((XInput.rank_le _ _ _).trans hn))

theorem start_FSM (I : DInput dims g h v pts cm cM (2 * cM * dims.prod)) (hcc : cm ≤ cM) (hfr : Fresh g) (sw : Nat) (incs : List Int) :
    I.TInv (2 * cM) (initFSM g pts sw incs).g :=
  DInput.TInv.start I (I.wpos hcc) (initFSM_sameMap _ _ _ _) (fun k => by rw [initFSM_value, hfr.value]; split <;> rfl)

end SB64

open FSM SB64
variable {R : Rounding} {dims : List Nat} {g : Grid (F64 R)} {h : ℝ} {v : Nat → ℝ} {pts : List Nat} {cm cM : ℝ}

/-- **C102** (FSM, running): in doubles, after one sweep per cell every time is the exact one up to the relative error, and stays so, whether or not the solver has stopped -/
theorem C102_FSM_running (I : DInput dims g h v pts cm cM (2 * cM * dims.prod)) (hcc : cm ≤ cM) (hfr : Fresh g) (U : Nat → WithTop ℝ)
    (hU : I.X.problem.IsSolution U) (goal m sw : Nat) (incs : List Int) (hd : IsDirs dims.length incs) (n : Nat) (hn : dims.prod ≤ n) (t : FSM.St (F64 R))
    (hs : Steps (FSM.Step m (solveFSM goal eikS)) n (initFSM g pts sw incs) t) (i : Nat) (hi : i < dims.prod) :
    RelClose (relErr dims.length cm (2 * cM * dims.prod)) (U i) (t.g.value i).1 :=
  run_accurate I hU (solveFSM_solver goal eikS) (post_FSM I hcc goal) (fun _ h => h) hs (start_FSM I hcc hfr sw incs) hd hn i hi

/-- **C102** (LSM, running) -/
theorem C102_LSM_running (I : DInput dims g h v pts cm cM (2 * cM * dims.prod)) (hcc : cm ≤ cM) (hfr : Fresh g) (U : Nat → WithTop ℝ)
    (hU : I.X.problem.IsSolution U) (goal m sw : Nat) (incs : List Int) (hd : IsDirs dims.length incs) (n : Nat) (hn : dims.prod ≤ n) (t : FSM.St (F64 R))
    (hs : Steps (FSM.Step m (solveLSM goal eikS)) n (initLSM g pts sw incs) t) (i : Nat) (hi : i < dims.prod) :
    RelClose (relErr dims.length cm (2 * cM * dims.prod)) (U i) (t.g.value i).1 :=
  run_accurate I hU (solveLSM_solver goal eikS) (post_LSM I hcc goal) (fun _ h => h.t) hs (I.lsm_start hcc hfr sw incs) hd hn i hi

/-- **C102** (FSM, budget): without goal a sweep budget of one sweep per cell is enough in doubles -/
theorem C102_FSM_budget (I : DInput dims g h v pts cm cM (2 * cM * dims.prod)) (hcc : cm ≤ cM) (hfr : Fresh g) (U : Nat → WithTop ℝ)
    (hU : I.X.problem.IsSolution U) (goal m sw : Nat) (hgoal : dims.prod ≤ goal) (hm : m < 2^32) (hbud : sw + dims.prod ≤ m) (incs : List Int)
    (hd : IsDirs dims.length incs) (n : Nat) (t : FSM.St (F64 R)) (hs : Steps (FSM.Step m (solveFSM goal eikS)) n (initFSM g pts sw incs) t)
    (hdone : FSM.Done m t) (i : Nat) (hi : i < dims.prod) : RelClose (relErr dims.length cm (2 * cM * dims.prod)) (U i) (t.g.value i).1 := by
  obtain ⟨h1, h2⟩ := C23_FSM_at_most_maxSweeps goal m hm eikS g pts sw (le_trans (Nat.le_add_right _ _) hbud) incs n t hs
  by_cases hlt : t.sweeps < m
  · exact C59_FSM I hcc hfr U hU goal m sw hgoal incs hd n t hs hdone hlt i hi
  · exact C102_FSM_running I hcc hfr U hU goal m sw incs hd n (by omega) t hs i hi

/-- **C102** (LSM, budget) -/
theorem C102_LSM_budget (I : DInput dims g h v pts cm cM (2 * cM * dims.prod)) (hcc : cm ≤ cM) (hfr : Fresh g) (U : Nat → WithTop ℝ)
    (hU : I.X.problem.IsSolution U) (goal m sw : Nat) (hgoal : dims.prod ≤ goal) (hm : m < 2^32) (hbud : sw + dims.prod ≤ m) (incs : List Int)
    (hd : IsDirs dims.length incs) (n : Nat) (t : FSM.St (F64 R)) (hs : Steps (FSM.Step m (solveLSM goal eikS)) n (initLSM g pts sw incs) t)
    (hdone : FSM.Done m t) (i : Nat) (hi : i < dims.prod) : RelClose (relErr dims.length cm (2 * cM * dims.prod)) (U i) (t.g.value i).1 := by
  obtain ⟨h1, h2⟩ := C26_LSM_at_most_maxSweeps goal m hm eikS g pts sw (le_trans (Nat.le_add_right _ _) hbud) incs n t hs
  by_cases hlt : t.sweeps < m
  · exact C59_LSM I hcc hfr U hU goal m sw hgoal incs hd n t hs hdone hlt i hi
  · exact C102_LSM_running I hcc hfr U hU goal m sw incs hd n (by omega) t hs i hi

/-- non-vacuity: the 3x3 map in doubles with correct rounding and a budget of 9 sweeps; both solvers stop -/
example : ∃ (g : Grid (F64 Rounding.nearest)), ∃ I : DInput [3,3] g 1 (fun _ => 1) [4] 1 1 (2 * 1 * (([3,3] : List Nat).prod : ℝ)), Fresh g ∧
    relErr 2 1 (2 * 1 * (([3,3] : List Nat).prod : ℝ)) < 2 / 10^8 ∧ (∃ U, I.X.problem.IsSolution U) ∧
    (∃ n s, Steps (FSM.Step 9 (FSM.solveFSM noGoal eikS)) n (FSM.initFSM g [4] 0 (FSM.incs0 [3,3])) s ∧ FSM.Done 9 s) ∧
    (∃ n s, Steps (FSM.Step 9 (FSM.solveLSM noGoal eikS)) n (FSM.initLSM g [4] 0 (FSM.incs0 [3,3])) s ∧ FSM.Done 9 s) := by
  set g : Grid (F64 Rounding.nearest) := Grid.create [3,3] Arith.one (0,0) with hg
  have X : XInput [3,3] (gridX g) 1 (fun _ => 1) [4] :=
    ⟨⟨by decide, by decide, by decide⟩, by decide, rfl, by decide, one_pos, rfl, fun _ _ _ => rfl⟩
  have hin : Input [3,3] g [4] := ⟨X.fits, rfl, X.inside⟩
  have hfr : Fresh g := ⟨fun _ => rfl, fun _ => rfl, fun _ => rfl⟩
  have hp : (([3,3] : List Nat).prod : ℝ) = 9 := by norm_num
  have I : DInput [3,3] g 1 (fun _ => 1) [4] 1 1 (2 * 1 * (([3,3] : List Nat).prod : ℝ)) := by
    have b1 : (2:ℝ)^(-200:ℤ) ≤ 1 := by
      have : (2:ℝ)^(-200:ℤ) ≤ (2:ℝ)^(0:ℤ) := zpow_le_zpow_right₀ (by norm_num) (by norm_num)
      simpa using this
    have b2 : (1:ℝ) ≤ (2:ℝ)^(200:ℤ) := by
      have : (2:ℝ)^(0:ℤ) ≤ (2:ℝ)^(200:ℤ) := zpow_le_zpow_right₀ (by norm_num) (by norm_num)
      simpa using this
    have b3 : (18:ℝ) ≤ (2:ℝ)^(300:ℤ) := by
      have : (2:ℝ)^(5:ℤ) ≤ (2:ℝ)^(300:ℤ) := zpow_le_zpow_right₀ (by norm_num) (by norm_num)
      refine le_trans ?_ this
      norm_num
    refine ⟨X, b1, b2, fun _ _ _ => b2, one_pos, fun _ _ _ => by norm_num, fun _ _ _ => by norm_num, ?_, ?_, ?_, ?_, ?_⟩
    · rw [hp]; norm_num
    · rw [hp]; norm_num
    · rw [hp]
      have : (2:ℝ) * 1 * 9 = 18 := by norm_num
      rw [this]; exact b3
    · rw [hp]; unfold uu; norm_num
    · unfold XR.eps; norm_num
  obtain ⟨U, hU, _⟩ := C17_unique_solution X.problem X.wellPosed
  refine ⟨g, I, hfr, ?_, ⟨U, hU⟩, ?_, ?_⟩
  · unfold relErr; rw [hp]; norm_num
  · obtain ⟨⟨n, s, hs, hd⟩, _⟩ := C23_doubles Rounding.nearest noGoal 9 [3,3] g [4] hin 0 _ (FSM.incs0_isDirs [3,3])
    exact ⟨n, s, hs, hd⟩
  · obtain ⟨⟨n, s, hs, hd⟩, _⟩ := C26_doubles Rounding.nearest noGoal 9 [3,3] g [4] hin 0 _ (FSM.incs0_isDirs [3,3])
    exact ⟨n, s, hs, hd⟩

end FMV
