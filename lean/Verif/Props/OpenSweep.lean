import Verif.Props.OpenMap
import Verif.Lemmas.Upwind
import Verif.Props.FSM
/-!
# C76: on an open map 2^n sweeps are enough
-/
set_option linter.unusedSectionVars false
set_option linter.unusedVariables false
namespace FMV
open XR Spec Shape FMM
open Classical

namespace Off
open FSM
variable {dims : List Nat} {g : Grid XR} {h v0 : ℝ} {v : Nat → ℝ} {pts : List Nat} {s : Nat}

theorem nb_bound (X : XInput dims g h v pts) {T : Nat → WithTop ℝ} {i : Nat} (hi : i < dims.prod) (ho : g.occ i = false) (hn : X.NB T i) {E : ℝ}
    (hE : (h / v i)^2 ≤ residL E (mins (Shape.mk' dims) T i)) : T i ≤ ((E + 2 * eps : ℝ) : WithTop ℝ) := by
  by_cases hlt : (E : WithTop ℝ) < T i
  · obtain ⟨u, hu, hle⟩ := upd_upper (X.cpos hi ho) hlt hE
    unfold XInput.NB at hn
    rw [hu] at hn
    refine (not_lt.1 hn).trans ?_
    have : u + eps ≤ E + 2 * eps := by linarith
    exact_mod_cast this
  · refine (not_lt.1 hlt).trans ?_
    have : E ≤ E + 2 * eps := by linarith [eps_pos]
    exact_mod_cast this

/-- what a visit of cell `i` achieves -/
def Post (X : XInput dims g h v pts) (solve : FSM.St XR → Nat → FSM.St XR) (J : Grid XR → Prop) : Prop :=
  ∀ t i, i < dims.prod → J t.g → g.occ i = false →
    X.SInv t.g ∧ J (solve t i).g ∧ (∀ k, tv (solve t i).g k ≤ tv t.g k) ∧
    ∀ E : ℝ, (h / v i)^2 ≤ residL E (mins (Shape.mk' dims) (tv t.g) i) → tv (solve t i).g i ≤ ((E + 2 * eps : ℝ) : WithTop ℝ)

theorem tried_le (X : XInput dims g h v pts) {g1 g2 : Grid XR} {i : Nat} {b : Bool} (I : X.SInv g1) (ht : Tried eikS g1 g2 i b)
    (hi : i < dims.prod) (ho : g.occ i = false) (k : Nat) : tv g2 k ≤ tv g1 k := by
  by_cases hk : k = i
  · subst hk
    cases b with
    | true =>
      obtain ⟨hb, e⟩ := ht.yes rfl
      rw [X.better_iff I.map I.good hi ho] at hb
      have e2 : tv g2 k = upd (h / v k) (tv g1 k) (mins (Shape.mk' dims) (tv g1) k) := by
        unfold tv; rw [e, X.eik_eq I.map I.good hi ho, toT_ofT]; rfl
      rw [e2]
      exact le_trans (le_add_of_nonneg_right (by exact_mod_cast eps_pos.le)) hb.le
    | false => unfold tv; rw [ht.no rfl]
  · unfold tv; rw [ht.other k hk]

theorem tried_bound (X : XInput dims g h v pts) {g1 g2 : Grid XR} {i : Nat} (I : X.SInv g1) (ht : Tried eikS g1 g2 i true)
    (hi : i < dims.prod) (ho : g.occ i = false) {E : ℝ} (hE : (h / v i)^2 ≤ residL E (mins (Shape.mk' dims) (tv g1) i)) : tv g2 i ≤ ((E + 2 * eps : ℝ) : WithTop ℝ) := by
  obtain ⟨hb, e⟩ := ht.yes rfl
  have e2 : tv g2 i = upd (h / v i) (tv g1 i) (mins (Shape.mk' dims) (tv g1) i) := by
    unfold tv; rw [e, X.eik_eq I.map I.good hi ho, toT_ofT]; rfl
  by_cases hlt : (E : WithTop ℝ) < tv g1 i
  · obtain ⟨u, hu, hle⟩ := upd_upper (X.cpos hi ho) hlt hE
    rw [e2, hu]
    have : u ≤ E + 2 * eps := by linarith [eps_pos]
    exact_mod_cast this
  · refine (tried_le X I ht hi ho i).trans ((not_lt.1 hlt).trans ?_)
    have : E ≤ E + 2 * eps := by linarith [eps_pos]
    exact_mod_cast this

theorem post_FSM (X : XInput dims g h v pts) (goal : Nat) : Post X (solveFSM goal eikS) X.SInv := by
  intro t i hi I ho
  obtain ⟨b, hT, _⟩ := (solveFSM_solver goal eikS).tried t i
  refine ⟨I, XInput.SInv.tried X I hT hi ho, tried_le X I hT hi ho, fun E hE => ?_⟩
  rcases solveFSM_cases goal eikS t i with ⟨hb, e⟩ | ⟨hb, e, _⟩
  · refine tried_bound X I ⟨hT.map, hT.other, fun _ => ⟨hb, ?_⟩, by simp⟩ hi ho hE
    rw [e]; simp [Grid.value_setValue]
  · have hn : X.NB (tv t.g) i := by
      intro hcon
      rw [(X.better_iff I.map I.good hi ho).2 hcon] at hb; cases hb
    have : tv (solveFSM goal eikS t i).g i = tv t.g i := by unfold tv; rw [e]; simp
    rw [this]
    exact nb_bound X hi ho hn hE

theorem post_LSM (X : XInput dims g h v pts) (goal : Nat) : Post X (solveLSM goal eikS) (LInv X) := by
  intro t i hi L ho
  have I := L.sinv
  obtain ⟨b, hT, _⟩ := (solveLSM_solver goal eikS).tried t i
  have hot : t.g.occ i = false := by rw [← ho]; exact SameMap.occ_eq I.map i
  refine ⟨I, LInv.solve X goal L hi hot, tried_le X I hT hi ho, fun E hE => ?_⟩
  rcases solveLSM_cases goal eikS t i with ⟨hst, e⟩ | ⟨hopn, hb, e⟩ | ⟨hopn, hb, e, _⟩
  · have hfz : t.g.state i = .frozen := (L.st i hi).resolve_left hst
    rw [e]
    exact nb_bound X hi ho (L.lock i hi ho hfz) hE
  · refine tried_bound X I ⟨hT.map, hT.other, fun _ => ⟨hb, ?_⟩, by simp⟩ hi ho hE
    rw [e]; simp [Grid.value_setValue, unlock_value]
  · have hn : X.NB (tv t.g) i := by
      intro hcon
      rw [(X.better_iff I.map I.good hi ho).2 hcon] at hb; cases hb
    have : tv (solveLSM goal eikS t i).g i = tv t.g i := by unfold tv; rw [e]; simp
    rw [this]
    exact nb_bound X hi ho hn hE

/-- the cells that a sweep in directions `incs` reaches going away from the start -/
def Quad (dims : List Nat) (incs : List Int) (s i : Nat) : Prop := ∀ k, k < dims.length → 0 ≤ ((digit dims i k : Int) - digit dims s k) * incs.getD k 1

/-- the bound -/
noncomputable def B (dims : List Nat) (c : ℝ) (s i : Nat) : ℝ := w dims.length c (off dims s i) + size dims.length (off dims s i) * (2 * eps)

theorem B_nonneg {c : ℝ} {i : Nat} : 0 ≤ B dims c s i := by
  unfold B
  have := w_nonneg (n := dims.length) (c := c) (off dims s i)
  have := eps_pos
  positivity

theorem quad_upwind (hf : Fits dims (2^31+1)) {incs : List Int} (hd : IsDirs dims.length incs) {i k : Nat} (hi : i < dims.prod) (hs : s < dims.prod) (hk : k < dims.length)
    (hq : Quad dims incs s i) (h0 : 0 < off dims s i k) :
    ∃ j ∈ (Shape.mk' dims).nbrsDim i k, off dims s j = tow (off dims s i) k ∧ Quad dims incs s j ∧ ((digit dims j k : Int) - digit dims i k) * incs.getD k 1 < 0 ∧
      ∀ m, m < dims.length → m ≠ k → digit dims j m = digit dims i m := by
  obtain ⟨j, hj, e⟩ := off_toward hf hi hs hk h0
  obtain ⟨h1, h2'⟩ := nbrsDim_digits hf hi hk hj
  have h2 : ∀ m, m < dims.length → m ≠ k → digit dims j m = digit dims i m := fun m h1 h2 => (h2' m h1 h2).symm
  have e2 : off dims s j k = off dims s i k - 1 := by rw [e]; unfold tow; rw [Function.update_self]
  rw [off_of_lt hk] at h0
  rw [off_of_lt hk, off_of_lt hk] at e2
  have hqk := hq k hk
  have hdir := hd.getD k
  refine ⟨j, hj, e, ?_, ?_, h2⟩
  · intro m hm
    by_cases hmk : m = k
    · subst hmk
      rcases hdir with h | h <;> rw [h] at hqk ⊢ <;> omega
    · rw [h2 m hm hmk]; exact hq m hm
  · rcases hdir with h | h <;> rw [h] at hqk ⊢ <;> omega

/-- one sweep -/
theorem sweep_quad (X : XInput dims g h v [s]) (ho : Open dims g v v0) {solve : FSM.St XR → Nat → FSM.St XR} {J : Grid XR → Prop} (hP : Post X solve J) {incs : List Int}
    (hd : IsDirs dims.length incs) (t : FSM.St XR) (hJ : J t.g) (hJS : ∀ g', J g' → X.SInv g') :
    ∀ (l1 l2 : List Nat), sweepOrder dims incs = l1 ++ l2 →
      J (l1.foldl (visit solve) t).g ∧ (∀ k, tv (l1.foldl (visit solve) t).g k ≤ tv t.g k) ∧
      ∀ i ∈ l1, Quad dims incs s i → tv (l1.foldl (visit solve) t).g i ≤ ((B dims (h / v0) s i : ℝ) : WithTop ℝ) := by
  have hne := dims_ne X.fits
  have hs : s < dims.prod := X.inside s (by simp)
  intro l1
  induction l1 using List.reverseRecOn with
  | nil => intro l2 _; exact ⟨hJ, fun k => le_refl _, by simp⟩
  | append_singleton l i ih =>
    intro l2 hsp
    rw [List.append_assoc, List.singleton_append] at hsp
    obtain ⟨j1, j2, j3⟩ := ih (i :: l2) hsp
    have hi : i < dims.prod := by
      rw [← mem_sweepOrder hne hd, hsp]; simp
    obtain ⟨hocc, hv⟩ := ho i hi
    rw [List.foldl_append]
    set u := l.foldl (visit solve) t with hu
    have hS := hJS _ j1
    have huo : u.g.occ i = false := by rw [← hocc]; exact SameMap.occ_eq hS.map i
    have hvis : visit solve u i = solve u i := by unfold visit; rw [huo]; rfl
    show J (visit solve u i).g ∧ _
    rw [show List.foldl (visit solve) u [i] = solve u i from hvis, hvis]
    obtain ⟨_, p1, p2, p3⟩ := hP u i hi j1 hocc
    refine ⟨p1, fun k => (p2 k).trans (j2 k), ?_⟩
    intro k hk hq
    rcases List.mem_append.1 hk with hk | hk
    · exact (p2 k).trans (j3 k hk hq)
    · rw [List.mem_singleton] at hk
      subst hk
      by_cases his : ∃ m, m < dims.length ∧ 0 < off dims s k m
      · have hc : 0 < h / v0 := by have := X.cpos hi hocc; rwa [hv] at this
        set d : ℝ := (size dims.length (off dims s k) - 1) * (2 * eps) with hdd
        have hB : B dims (h / v0) s k = (w dims.length (h / v0) (off dims s k) + d) + 2 * eps := by unfold B; rw [hdd]; ring
        rw [hB]
        apply p3
        rw [hv, ← w_spec hc his, residL_mins]
        unfold ms residL
        rw [List.map_map, sum_map_range]
        apply Finset.sum_le_sum
        intro m hm
        have hm' := Finset.mem_range.1 hm
        show posSq _ (if 0 < off dims s k m then ((w dims.length (h / v0) (tow (off dims s k) m) : ℝ) : WithTop ℝ) else ⊤) ≤ posSq _ _
        by_cases h0 : 0 < off dims s k m
        · rw [if_pos h0]
          obtain ⟨j, hj, e, hqj, hlt, hoth⟩ := quad_upwind X.fits hd hi hs hm' hq h0
          have hjN : j < dims.prod := nbrsDim_lt X.fits hi hm' hj
          have hjl : j ∈ l := upwind_visited X.fits.pos hne hd hsp hjN hlt hoth
          have hjB := j3 j hjl hqj
          have hBj : B dims (h / v0) s j = w dims.length (h / v0) (tow (off dims s k) m) + d := by
            unfold B
            rw [e, hdd]
            have := size_tow (x := off dims s k) hm' h0
            have : ((size dims.length (tow (off dims s k) m) : ℕ) : ℝ) + 1 = (size dims.length (off dims s k) : ℕ) := by exact_mod_cast this
            rw [← this]; ring
          rw [hBj] at hjB
          rw [← posSq_shift _ d]
          exact posSq_anti _ ((dimMin_le hj).trans hjB)
        · rw [if_neg h0, posSq_top]; exact posSq_nonneg _ _
      · have : k = s := (off_zero X.fits hi hs).1 his
        rw [(hJS _ p1).src k (by simp [this])]
        exact_mod_cast B_nonneg

theorem sum_sizes : ∀ dims : List Nat, (∀ x ∈ dims, 0 < x) → ∑ k ∈ Finset.range dims.length, (dims.getD k 0 - 1) + 1 ≤ dims.prod
  | [], _ => by simp
  | d :: ds, hp => by
    have ih := sum_sizes ds (fun x hx => hp x (List.mem_cons_of_mem _ hx))
    have hd : 0 < d := hp d (by simp)
    rw [List.length_cons, Finset.sum_range_succ', List.prod_cons]
    simp only [List.getD_cons_succ, List.getD_cons_zero]
    have : d - 1 + 1 = d := by omega
    have h1 : 1 ≤ ds.prod := by omega
    have h2 : (d - 1) * 1 ≤ (d - 1) * ds.prod := Nat.mul_le_mul_left _ h1
    have h3 : d * ds.prod = (d - 1) * ds.prod + ds.prod := by
      conv_lhs => rw [← this]
      ring
    omega

theorem size_off_le (hf : Fits dims (2^31+1)) (i : Nat) : size dims.length (off dims s i) ≤ dims.prod := by
  refine le_trans ?_ (le_trans (Nat.le_succ _) (sum_sizes dims hf.pos))
  apply Finset.sum_le_sum
  intro k hk
  have hk' := Finset.mem_range.1 hk
  rw [off_of_lt hk']
  have := digit_lt hf.pos hk' i
  have := digit_lt hf.pos hk' s
  omega

/-- the direction of the quadrant of `i` -/
theorem exists_quad (dims : List Nat) (s i : Nat) : ∃ m < 2^dims.length, Quad dims (dirsOf dims.length m) s i := by
  have hd : IsDirs dims.length ((List.range dims.length).map (fun k => if digit dims s k ≤ digit dims i k then (1:Int) else -1)) := by
    refine ⟨by simp, ?_⟩
    intro x hx
    obtain ⟨k, _, rfl⟩ := List.mem_map.1 hx
    split
    · exact Or.inl rfl
    · exact Or.inr rfl
  obtain ⟨m, hm, e⟩ := exists_dirsOf dims.length hd
  refine ⟨m, hm, ?_⟩
  rw [e]
  intro k hk
  rw [List.getD_eq_getElem?_getD, List.getElem?_map, List.getElem?_range hk]
  simp only [Option.map_some, Option.getD_some]
  split <;> omega

/-- after `n` sweeps the cells of the last `n` quadrants are accurate -/
theorem run_quads (X : XInput dims g h v [s]) (ho : Open dims g v v0) {solve : FSM.St XR → Nat → FSM.St XR} {J : Grid XR → Prop} (S : Solver eikS solve) (hP : Post X solve J)
    (hJS : ∀ g', J g' → X.SInv g') {m m0 n : Nat} {a t : FSM.St XR} (hs : Steps (FSM.Step m solve) n a t) (hJ : J a.g) (hi : a.incs = dirsOf dims.length m0) :
    J t.g ∧ t.incs = dirsOf dims.length (m0 + n) ∧
    ∀ j, j < n → ∀ i, i < dims.prod → Quad dims (dirsOf dims.length (m0 + j + 1)) s i → tv t.g i ≤ ((B dims (h / v0) s i : ℝ) : WithTop ℝ) := by
  induction hs with
  | refl => exact ⟨hJ, hi, fun j hj => by omega⟩
  | @tail n s1 t1 u1 h1 h2 ih =>
    obtain ⟨q1, q2, q3⟩ := ih hJ hi
    obtain ⟨_, rfl⟩ := h2
    have hne := dims_ne X.fits
    have hsh : t1.g.shape.dims = dims := by rw [(hJS _ q1).map.shape, X.shape]; rfl
    have hb : bump t1.incs = dirsOf dims.length (m0 + n + 1) := by rw [q2, bump_dirsOf]
    have hdirs := isDirs_dirsOf dims.length (m0 + n + 1)
    obtain ⟨p1, p2, p3⟩ := sweep_quad X ho hP hdirs (begun t1) q1 hJS _ [] (List.append_nil _).symm
    rw [sweep_eq, hsh, hb]
    refine ⟨p1, ?_, ?_⟩
    · have := S.sweep_incs t1
      rw [sweep_eq, hsh, hb] at this
      rw [this]; rfl
    · intro j hj i hi hq
      rcases Nat.lt_succ_iff_lt_or_eq.1 hj with hj | rfl
      · exact (p2 i).trans (q3 j hj i hi hq)
      · exact p3 i ((mem_sweepOrder hne hdirs).2 hi) hq

theorem run_all (X : XInput dims g h v [s]) (ho : Open dims g v v0) {solve : FSM.St XR → Nat → FSM.St XR} {J : Grid XR → Prop} (S : Solver eikS solve) (hP : Post X solve J)
    (hJS : ∀ g', J g' → X.SInv g') {m n : Nat} {a t : FSM.St XR} (hs : Steps (FSM.Step m solve) n a t) (hJ : J a.g) (hd : IsDirs dims.length a.incs) (hn : 2^dims.length ≤ n)
    {U : Nat → WithTop ℝ} (hU : X.problem.IsSolution U) (i : Nat) (hi : i < dims.prod) :
    U i ≤ toT (t.g.value i) ∧ toT (t.g.value i) ≤ U i + ((dims.prod * (2 * eps) : ℝ) : WithTop ℝ) := by
  obtain ⟨m0, hm0, e0⟩ := exists_dirsOf dims.length hd
  obtain ⟨q1, _, q3⟩ := run_quads X ho S hP hJS hs hJ e0.symm
  refine ⟨(hJS _ q1).low U hU i hi, ?_⟩
  obtain ⟨mq, hmq, hq⟩ := exists_quad dims s i
  have hj : ∃ j, j < 2^dims.length ∧ (m0 + j + 1) % 2^dims.length = mq := by
    by_cases hle : m0 + 1 ≤ mq
    · exact ⟨mq - (m0 + 1), by omega, by rw [show m0 + (mq - (m0 + 1)) + 1 = mq by omega]; exact Nat.mod_eq_of_lt hmq⟩
    · refine ⟨mq + 2^dims.length - (m0 + 1), by omega, ?_⟩
      rw [show m0 + (mq + 2^dims.length - (m0 + 1)) + 1 = mq + 2^dims.length by omega, Nat.add_mod_right]
      exact Nat.mod_eq_of_lt hmq
  obtain ⟨j, hj, hmod⟩ := hj
  rw [← hmod, dirsOf_mod] at hq
  have hB := q3 j (by omega) i hi hq
  obtain ⟨_, eU⟩ := exact_open X ho hU hi
  rw [eU]
  refine le_trans hB ?_
  rw [← WithTop.coe_add]
  apply WithTop.coe_le_coe.2
  unfold B
  have h1 : ((size dims.length (off dims s i) : ℕ) : ℝ) ≤ dims.prod := by exact_mod_cast size_off_le X.fits i
  have := mul_le_mul_of_nonneg_right h1 (show (0:ℝ) ≤ 2 * eps by linarith [eps_pos])
  linarith

end Off

open FSM Off
variable {dims : List Nat} {g : Grid XR} {h v0 : ℝ} {v : Nat → ℝ} {s : Nat}

/-- **C76** (FSM): on an open map (no obstacles, one speed, one start) in `n` dimensions, a sweep budget of `2^n` is enough: whenever FSM stops (at a fixed point or because
its budget is used up), every arrival time is between the exact one and the exact one plus twice the margin per cell. -/
theorem C76_FSM (X : XInput dims g h v [s]) (hfr : Fresh g) (ho : Open dims g v v0) (U : Nat → WithTop ℝ) (hU : X.problem.IsSolution U) (goal m sw : Nat)
    (hgoal : dims.prod ≤ goal) (hm : m < 2^32) (hbud : sw + 2^dims.length ≤ m) (incs : List Int) (hd : IsDirs dims.length incs) (n : Nat) (t : FSM.St XR)
    (hs : Steps (FSM.Step m (solveFSM goal eikS)) n (initFSM g [s] sw incs) t) (hdone : FSM.Done m t) (i : Nat) (hi : i < dims.prod) :
    U i ≤ toT (t.g.value i) ∧ toT (t.g.value i) ≤ U i + ((dims.prod * (2 * eps) : ℝ) : WithTop ℝ) := by
  obtain ⟨h1, h2⟩ := C23_FSM_at_most_maxSweeps goal m hm eikS g [s] sw (le_trans (Nat.le_add_right _ _) hbud) incs n t hs
  by_cases hlt : t.sweeps < m
  · exact C28_FSM_accuracy X hfr U hU goal m sw hgoal incs hd n t hs hdone hlt i hi
  · exact run_all X ho (solveFSM_solver goal eikS) (post_FSM X goal) (fun _ h => h) hs (initFSM_sinv X hfr sw incs) hd (by omega) hU i hi

/-- **C76** (LSM) -/
theorem C76_LSM (X : XInput dims g h v [s]) (hfr : Fresh g) (ho : Open dims g v v0) (U : Nat → WithTop ℝ) (hU : X.problem.IsSolution U) (goal m sw : Nat)
    (hgoal : dims.prod ≤ goal) (hm : m < 2^32) (hbud : sw + 2^dims.length ≤ m) (incs : List Int) (hd : IsDirs dims.length incs) (n : Nat) (t : FSM.St XR)
    (hs : Steps (FSM.Step m (solveLSM goal eikS)) n (initLSM g [s] sw incs) t) (hdone : FSM.Done m t) (i : Nat) (hi : i < dims.prod) :
    U i ≤ toT (t.g.value i) ∧ toT (t.g.value i) ≤ U i + ((dims.prod * (2 * eps) : ℝ) : WithTop ℝ) := by
  obtain ⟨h1, h2⟩ := C26_LSM_at_most_maxSweeps goal m hm eikS g [s] sw (le_trans (Nat.le_add_right _ _) hbud) incs n t hs
  by_cases hlt : t.sweeps < m
  · exact C28_LSM_accuracy X hfr U hU goal m sw hgoal incs hd n t hs hdone hlt i hi
  · exact run_all X ho (solveLSM_solver goal eikS) (post_LSM X goal) (fun _ h => h.sinv) hs (LInv.start X hfr sw incs) hd (by omega) hU i hi

/-- non-vacuity: the empty 3x3 map with a start in the middle and a budget of 4 sweeps; both solvers stop -/
example : ∃ (g : Grid XR), XInput [3,3] g 1 (fun _ => 1) [4] ∧ Fresh g ∧ Open [3,3] g (fun _ => 1) 1 ∧
    (∃ n t, Steps (FSM.Step 4 (solveFSM noGoal eikS)) n (initFSM g [4] 0 (incs0 [3,3])) t ∧ FSM.Done 4 t) ∧
    (∃ n t, Steps (FSM.Step 4 (solveLSM noGoal eikS)) n (initLSM g [4] 0 (incs0 [3,3])) t ∧ FSM.Done 4 t) := by
  have X : XInput [3,3] (Grid.create [3,3] (fin 1) (0,0)) 1 (fun _ => 1) [4] :=
    ⟨⟨by decide, by decide, by decide⟩, by decide, rfl, by decide, one_pos, rfl, fun _ _ _ => rfl⟩
  have hfr : Fresh (Grid.create (F := XR) [3,3] (fin 1) (0,0)) := ⟨fun _ => rfl, fun _ => rfl, fun _ => rfl⟩
  refine ⟨_, X, hfr, ?_, (C23_FSM_exact X hfr noGoal 4 0 _ (incs0_isDirs [3,3])).1, (C26_LSM_exact X hfr noGoal 4 0 _ (incs0_isDirs [3,3])).1⟩
  intro i _
  have e : eps < 1 := by unfold XR.eps; norm_num
  exact ⟨by show decide ((1:ℝ) < eps) = false; exact decide_eq_false (not_lt.2 e.le), rfl⟩

end FMV
