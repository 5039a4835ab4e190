import Verif.Props.OpenSweep
/-!
# C101: how many sweeps FSM and LSM need on any map
-/
set_option linter.unusedSectionVars false
set_option linter.unusedVariables false
namespace FMV
open XR Spec Shape FMM
open Classical

namespace SB
open FSM Off
variable {dims : List Nat} {g : Grid XR} {h : ℝ} {v : Nat → ℝ} {pts : List Nat} {U : Nat → WithTop ℝ}

/-- cell `i` is within twice the margin per preceding cell -/
def Near (dims : List Nat) (U : Nat → WithTop ℝ) (g' : Grid XR) (i : Nat) : Prop :=
  tv g' i ≤ U i + (((2 * eps) * (XInput.rank dims.prod U i : ℝ) : ℝ) : WithTop ℝ)

/-- a visit of a cell whose predecessors are near makes it near -/
theorem visit_near (X : XInput dims g h v pts) (hU : X.problem.IsSolution U) {solve : FSM.St XR → Nat → FSM.St XR} {J : Grid XR → Prop} (hP : Post X solve J)
    (hJS : ∀ g', J g' → X.SInv g') {t : FSM.St XR} {i : Nat} (hi : i < dims.prod) (hJ : J t.g) (ho : g.occ i = false)
    (hpre : ∀ j, j < dims.prod → U j < U i → Near dims U t.g j) : Near dims U (solve t i).g i := by
  obtain ⟨_, p1, p2, p3⟩ := hP t i hi hJ ho
  obtain ⟨e1, e2, e3⟩ := X.exSol hU i hi
  have he := eps_pos
  unfold Near
  by_cases hs : i ∈ pts
  · rw [(hJS _ p1).src i hs, e1 hs, zero_add]
    have : (0:ℝ) ≤ 2 * eps * (XInput.rank dims.prod U i : ℝ) := by positivity
    exact_mod_cast this
  rcases e3 hs (by simp [ho]) with ⟨r, f1, f2⟩ | ⟨f1, _⟩
  · set n := XInput.rank dims.prod U i with hn
    set D : ℝ := 2 * eps * ((n:ℝ) - 1) with hD
    have : ((r + D) + 2 * eps : ℝ) = r + 2 * eps * (n:ℝ) := by rw [hD]; ring
    rw [f1, ← WithTop.coe_add, ← this]
    apply p3
    rw [← f2]
    unfold mins
    apply residL_le_map
    intro d hd
    rcases lt_or_ge (dimMin (Shape.mk' dims) U i d) (r : WithTop ℝ) with hlt | hge
    · obtain ⟨j, hj, hje⟩ := dimMin_attained (ne_top_of_lt hlt)
      have hjN : j < dims.prod := nbrsDim_lt X.fits hi (List.mem_range.1 hd) hj
      rw [hje] at hlt ⊢
      have hlt' : U j < U i := by rw [f1]; exact hlt
      have hr := XInput.rank_lt (U := U) (i := i) hjN hlt'
      have hT := hpre j hjN hlt'
      unfold Near at hT
      cases hu : U j with
      | top => rw [hu] at hlt; simp at hlt
      | coe u =>
        rw [hu] at hT
        rw [← posSq_shift _ D]
        apply posSq_anti
        refine (dimMin_le hj).trans (hT.trans ?_)
        rw [← WithTop.coe_add]
        apply WithTop.coe_le_coe.2
        have h5 : (XInput.rank dims.prod U j : ℝ) + 1 ≤ n := by
          have : XInput.rank dims.prod U j + 1 ≤ n := by omega
          exact_mod_cast this
        have := mul_le_mul_of_nonneg_left (show (XInput.rank dims.prod U j : ℝ) ≤ (n:ℝ) - 1 by linarith) (show (0:ℝ) ≤ 2 * eps by linarith)
        linarith
    · rw [posSq_eq_zero hge]; exact posSq_nonneg _ _
  · rw [f1]; simp

/-- the sweep: if the cells of rank below `n` are near before it, those of rank at most `n` are near after it; and a sweep that changed something lowered a time by
more than the margin -/
theorem sweep_near (X : XInput dims g h v pts) (hU : X.problem.IsSolution U) {solve : FSM.St XR → Nat → FSM.St XR} {J : Grid XR → Prop} (S : Solver eikS solve) (hP : Post X solve J)
    (hJS : ∀ g', J g' → X.SInv g') {incs : List Int} (hd : IsDirs dims.length incs) (t : FSM.St XR) (hJ : J t.g) (hk : t.keep = false) (n : Nat)
    (hpre : ∀ j, j < dims.prod → XInput.rank dims.prod U j < n → Near dims U t.g j) :
    ∀ (l1 l2 : List Nat), sweepOrder dims incs = l1 ++ l2 →
      J (l1.foldl (visit solve) t).g ∧ (∀ k, tv (l1.foldl (visit solve) t).g k ≤ tv t.g k) ∧
      (∀ i ∈ l1, XInput.rank dims.prod U i ≤ n → Near dims U (l1.foldl (visit solve) t).g i) ∧
      ((l1.foldl (visit solve) t).keep = true → ∃ i, i < dims.prod ∧ tv (l1.foldl (visit solve) t).g i + (eps : WithTop ℝ) < tv t.g i) := by
  have hne := dims_ne X.fits
  intro l1
  induction l1 using List.reverseRecOn with
  | nil => intro l2 _; exact ⟨hJ, fun k => le_refl _, by simp, fun hh => by simp [hk] at hh⟩
  | append_singleton l i ih =>
    intro l2 hsp
    rw [List.append_assoc, List.singleton_append] at hsp
    obtain ⟨j1, j2, j3, j4⟩ := ih (i :: l2) hsp
    have hi : i < dims.prod := by
      rw [← mem_sweepOrder hne hd, hsp]; simp
    rw [List.foldl_append]
    set u := l.foldl (visit solve) t with hu
    have hI := hJS _ j1
    have hocc : u.g.occ i = g.occ i := SameMap.occ_eq hI.map i
    show J (visit solve u i).g ∧ _
    cases ho : g.occ i with
    | true =>
      have hvis : visit solve u i = u := by unfold visit; rw [hocc, ho]; rfl
      rw [show List.foldl (visit solve) u [i] = u from hvis, hvis]
      refine ⟨j1, j2, ?_, j4⟩
      intro k hk2 hrk
      rcases List.mem_append.1 hk2 with hk2 | hk2
      · exact j3 k hk2 hrk
      · rw [List.mem_singleton] at hk2
        subst hk2
        obtain ⟨e1, e2, _⟩ := X.exSol hU k hi
        unfold Near
        by_cases hs : k ∈ pts
        · rw [hI.src k hs, e1 hs, zero_add]
          have := eps_pos
          have : (0:ℝ) ≤ 2 * eps * (XInput.rank dims.prod U k : ℝ) := by positivity
          exact_mod_cast this
        · rw [e2 hs ho]; simp
    | false =>
      have hvis : visit solve u i = solve u i := by unfold visit; rw [hocc, ho]; rfl
      rw [show List.foldl (visit solve) u [i] = solve u i from hvis, hvis]
      obtain ⟨_, p1, p2, p3⟩ := hP u i hi j1 ho
      refine ⟨p1, fun k => (p2 k).trans (j2 k), ?_, ?_⟩
      · intro k hk2 hrk
        rcases List.mem_append.1 hk2 with hk2 | hk2
        · exact (p2 k).trans (j3 k hk2 hrk)
        · rw [List.mem_singleton] at hk2
          subst hk2
          refine visit_near X hU hP hJS hi j1 ho ?_
          intro j hj hlt
          have := XInput.rank_lt (U := U) (i := k) hj hlt
          exact (j2 j).trans (hpre j hj (by omega))
      · intro hkeep
        obtain ⟨b, hT, hkb⟩ := S.tried u i
        cases b with
        | true =>
          obtain ⟨hb, e⟩ := hT.yes rfl
          rw [X.better_iff hI.map hI.good hi ho] at hb
          have e2 : tv (solve u i).g i = upd (h / v i) (tv u.g i) (mins (Shape.mk' dims) (tv u.g) i) := by
            unfold tv; rw [e, X.eik_eq hI.map hI.good hi ho, toT_ofT]; rfl
          rw [← e2] at hb
          exact ⟨i, hi, lt_of_lt_of_le hb (j2 i)⟩
        | false =>
          rw [Bool.or_false] at hkb
          rw [hkb] at hkeep
          obtain ⟨k, hk1, hk2⟩ := j4 hkeep
          exact ⟨k, hk1, lt_of_le_of_lt (add_le_add_left (p2 k) _) hk2⟩

/-- the excess of a cell over the exact time (0 where no time is expected) -/
noncomputable def exc (U : Nat → WithTop ℝ) (g' : Grid XR) (i : Nat) : ℝ := (tv g' i).untopD 0 - (U i).untopD 0
/-- total excess over the cells that have a finite exact time -/
noncomputable def total (N : Nat) (U : Nat → WithTop ℝ) (g' : Grid XR) : ℝ := ∑ i ∈ (Finset.range N).filter (fun i => U i ≠ ⊤), exc U g' i

/-- all cells near -/
def AllNear (dims : List Nat) (U : Nat → WithTop ℝ) (g' : Grid XR) : Prop := ∀ i, i < dims.prod → Near dims U g' i

theorem near_fin {g' : Grid XR} {i : Nat} (hn : Near dims U g' i) (hlow : U i ≤ tv g' i) (hU : U i ≠ ⊤) :
    ∃ a b : ℝ, U i = a ∧ tv g' i = b ∧ a ≤ b ∧ b ≤ a + 2 * eps * (XInput.rank dims.prod U i : ℝ) := by
  unfold Near at hn
  cases ha : U i with
  | top => exact absurd ha hU
  | coe a =>
    rw [ha] at hn hlow
    cases hb : tv g' i with
    | top => rw [hb, ← WithTop.coe_add] at hn; exact absurd (top_le_iff.1 hn) WithTop.coe_ne_top
    | coe b =>
      rw [hb] at hn hlow
      rw [← WithTop.coe_add] at hn
      exact ⟨a, b, rfl, rfl, WithTop.coe_le_coe.1 hlow, WithTop.coe_le_coe.1 hn⟩

theorem total_nonneg {g' : Grid XR} (hn : AllNear dims U g') (hlow : ∀ j, j < dims.prod → U j ≤ tv g' j) : 0 ≤ total dims.prod U g' := by
  unfold total
  apply Finset.sum_nonneg
  intro i hi
  rw [Finset.mem_filter, Finset.mem_range] at hi
  obtain ⟨a, b, e1, e2, h1, _⟩ := near_fin (hn i hi.1) (hlow i hi.1) hi.2
  unfold exc
  rw [e1, e2]
  simpa using h1

theorem total_le {g' : Grid XR} (hn : AllNear dims U g') (hlow : ∀ j, j < dims.prod → U j ≤ tv g' j) : total dims.prod U g' ≤ 2 * (dims.prod:ℝ)^2 * eps := by
  have he := eps_pos
  have h1 : ∀ i ∈ (Finset.range dims.prod).filter (fun i => U i ≠ ⊤), exc U g' i ≤ 2 * eps * (dims.prod : ℝ) := by
    intro i hi
    rw [Finset.mem_filter, Finset.mem_range] at hi
    obtain ⟨a, b, e1, e2, _, h2⟩ := near_fin (hn i hi.1) (hlow i hi.1) hi.2
    unfold exc
    rw [e1, e2]
    have h3 : (XInput.rank dims.prod U i : ℝ) ≤ dims.prod := by exact_mod_cast XInput.rank_le _ _ _
    have := mul_le_mul_of_nonneg_left h3 (show (0:ℝ) ≤ 2 * eps by linarith)
    show b - a ≤ _
    linarith
  refine (Finset.sum_le_card_nsmul _ _ _ h1).trans ?_
  have h2 : ((Finset.range dims.prod).filter (fun i => U i ≠ ⊤)).card ≤ dims.prod := by
    refine (Finset.card_filter_le _ _).trans ?_
    simp
  rw [nsmul_eq_mul]
  have h3 : (((Finset.range dims.prod).filter (fun i => U i ≠ ⊤)).card : ℝ) ≤ dims.prod := by exact_mod_cast h2
  have := mul_le_mul_of_nonneg_right h3 (show (0:ℝ) ≤ 2 * eps * (dims.prod : ℝ) by positivity)
  refine this.trans (le_of_eq (by ring))

theorem total_drop {g1 g2 : Grid XR} (hn : AllNear dims U g1) (hlow1 : ∀ j, j < dims.prod → U j ≤ tv g1 j) (hlow : ∀ j, j < dims.prod → U j ≤ tv g2 j)
    (hle : ∀ k, tv g2 k ≤ tv g1 k) (hst : ∃ i, i < dims.prod ∧ tv g2 i + (eps : WithTop ℝ) < tv g1 i) : total dims.prod U g2 + eps < total dims.prod U g1 := by
  have he := eps_pos
  obtain ⟨i, hi, hlt⟩ := hst
  have hn2 : AllNear dims U g2 := fun k hk => (hle k).trans (hn k hk)
  have key : ∀ k, k < dims.prod → U k ≠ ⊤ → ∃ b1 b2 : ℝ, tv g1 k = b1 ∧ tv g2 k = b2 := by
    intro k hk hU
    obtain ⟨_, b1, _, e1, _⟩ := near_fin (hn k hk) (hlow1 k hk) hU
    obtain ⟨_, b2, _, e2, _⟩ := near_fin (hn2 k hk) (hlow k hk) hU
    exact ⟨b1, b2, e1, e2⟩
  have hUi : U i ≠ ⊤ := by
    intro hc
    have := hlow i hi
    rw [hc, top_le_iff] at this
    rw [this] at hlt
    simp at hlt
  have hmem : i ∈ (Finset.range dims.prod).filter (fun i => U i ≠ ⊤) := by
    rw [Finset.mem_filter, Finset.mem_range]; exact ⟨hi, hUi⟩
  unfold total
  rw [← Finset.add_sum_erase _ _ hmem, ← Finset.add_sum_erase _ (exc U g1) hmem]
  have h1 : exc U g2 i + eps < exc U g1 i := by
    obtain ⟨b1, b2, e1, e2⟩ := key i hi hUi
    unfold exc
    rw [e1, e2] at hlt ⊢
    have : b2 + eps < b1 := by exact_mod_cast hlt
    show b2 - _ + eps < b1 - _
    linarith
  have h2 : ∑ k ∈ ((Finset.range dims.prod).filter (fun i => U i ≠ ⊤)).erase i, exc U g2 k ≤ ∑ k ∈ ((Finset.range dims.prod).filter (fun i => U i ≠ ⊤)).erase i, exc U g1 k := by
    apply Finset.sum_le_sum
    intro k hk
    have hk' := Finset.mem_of_mem_erase hk
    rw [Finset.mem_filter, Finset.mem_range] at hk'
    obtain ⟨b1, b2, e1, e2⟩ := key k hk'.1 hk'.2
    have := hle k
    unfold exc
    rw [e1, e2] at this ⊢
    have := WithTop.coe_le_coe.1 this
    show b2 - _ ≤ b1 - _
    linarith
  linarith

/-- what `n` sweeps achieve -/
theorem run_near (X : XInput dims g h v pts) (hU : X.problem.IsSolution U) {solve : FSM.St XR → Nat → FSM.St XR} {J : Grid XR → Prop} (S : Solver eikS solve) (hP : Post X solve J)
    (hJS : ∀ g', J g' → X.SInv g') {m n : Nat} {a t : FSM.St XR} (hs : Steps (FSM.Step m solve) n a t) (hJ : J a.g) (hd : IsDirs dims.length a.incs)
    (hz : ∀ i, i < dims.prod → XInput.rank dims.prod U i = 0 → Near dims U a.g i) :
    J t.g ∧ IsDirs dims.length t.incs ∧ (∀ i, i < dims.prod → XInput.rank dims.prod U i ≤ n → Near dims U t.g i) ∧
    (dims.prod < n → t.keep = true → total dims.prod U t.g + (n - dims.prod : ℝ) * eps ≤ 2 * (dims.prod:ℝ)^2 * eps) := by
  induction hs with
  | refl => exact ⟨hJ, hd, fun i hi h0 => hz i hi (by omega), fun hh => by omega⟩
  | @tail n s1 t1 u1 h1 h2 ih =>
    obtain ⟨q1, q2, q3, q4⟩ := ih hJ hd hz
    obtain ⟨hnd, rfl⟩ := h2
    have hsh : t1.g.shape.dims = dims := by rw [(hJS _ q1).map.shape, X.shape]; rfl
    have hne := dims_ne X.fits
    have hdirs := bump_isDirs q2
    obtain ⟨p1, p2, p3, p4⟩ := sweep_near X hU S hP hJS hdirs (begun t1) q1 rfl (n+1) (fun j hj hr => q3 j hj (by omega)) _ [] (List.append_nil _).symm
    have hinc := S.sweep_incs t1
    rw [sweep_eq, hsh] at hinc ⊢
    refine ⟨p1, by rw [hinc]; exact hdirs, fun i hi hr => p3 i ((mem_sweepOrder hne hdirs).2 hi) hr, ?_⟩
    intro hlt hkeep
    have hk1 : t1.keep = true := by
      unfold FSM.Done at hnd; push Not at hnd; exact hnd.1
    have hall : AllNear dims U t1.g := fun i hi => q3 i hi ((XInput.rank_le _ _ _).trans (by omega))
    have hd1 := total_drop (g1 := t1.g) hall ((hJS _ q1).low U hU) ((hJS _ p1).low U hU) p2 (p4 hkeep)
    rcases Nat.lt_or_ge dims.prod n with hlt2 | hge
    · have := q4 hlt2 hk1
      rw [Nat.cast_succ]
      linarith
    · have hn : n = dims.prod := by omega
      have := total_le hall ((hJS _ q1).low U hU)
      rw [Nat.cast_succ, hn]
      linarith

/-- cells without a predecessor: starts and cells that are never reached -/
theorem rank_zero (X : XInput dims g h v pts) (hU : X.problem.IsSolution U) {g' : Grid XR} (hI : X.SInv g') {i : Nat} (hi : i < dims.prod)
    (h0 : XInput.rank dims.prod U i = 0) : Near dims U g' i := by
  obtain ⟨e1, e2, e3⟩ := X.exSol hU i hi
  unfold Near
  by_cases hs : i ∈ pts
  · rw [hI.src i hs, e1 hs, h0]; simp
  cases ho : g.occ i with
  | true => rw [e2 hs ho]; simp
  | false =>
    rcases e3 hs (by simp [ho]) with ⟨r, f1, f2⟩ | ⟨f1, _⟩
    · exfalso
      have hcc := X.csq hi ho
      have hz : residL r (mins (Shape.mk' dims) U i) ≤ residL r (mins (Shape.mk' dims) (fun _ => ⊤) i) := by
        unfold mins
        apply residL_le_map
        intro d hd
        rcases lt_or_ge (dimMin (Shape.mk' dims) U i d) (r : WithTop ℝ) with hlt | hge
        · obtain ⟨j, hj, hje⟩ := dimMin_attained (ne_top_of_lt hlt)
          have hjN : j < dims.prod := nbrsDim_lt X.fits hi (List.mem_range.1 hd) hj
          rw [hje] at hlt
          have := XInput.rank_lt (U := U) (i := i) hjN (by rw [f1]; exact hlt)
          omega
        · rw [posSq_eq_zero hge]; exact posSq_nonneg _ _
      rw [residL_all_top r (ms := mins (Shape.mk' dims) (fun _ => ⊤) i), f2] at hz
      · linarith
      · intro m hm
        unfold mins at hm
        rw [List.mem_map] at hm
        obtain ⟨k, _, rfl⟩ := hm
        by_contra hc
        obtain ⟨j, _, hje⟩ := dimMin_attained hc
        exact hc hje
    · rw [f1]; simp

/-- a run from a start has at most `2N^2 + N + 1` sweeps -/
theorem run_count (X : XInput dims g h v pts) {solve : FSM.St XR → Nat → FSM.St XR} {J : Grid XR → Prop} (S : Solver eikS solve) (hP : Post X solve J)
    (hJS : ∀ g', J g' → X.SInv g') {m n : Nat} {a t : FSM.St XR} (hs : Steps (FSM.Step m solve) n a t) (hJ : J a.g) (hd : IsDirs dims.length a.incs) :
    n ≤ 2 * dims.prod^2 + dims.prod + 1 := by
  obtain ⟨U, hU, _⟩ := C17_unique_solution X.problem X.wellPosed
  cases hs with
  | refl => omega
  | @tail n _ t1 _ h1 h2 =>
    obtain ⟨hnd, _⟩ := h2
    have hk1 : t1.keep = true := by
      unfold FSM.Done at hnd; push Not at hnd; exact hnd.1
    obtain ⟨q1, _, q3, q4⟩ := run_near X hU S hP hJS h1 hJ hd (fun i hi h0 => rank_zero X hU (hJS _ hJ) hi h0)
    rcases Nat.lt_or_ge dims.prod n with hlt | hge
    · have e := q4 hlt hk1
      have hall : AllNear dims U t1.g := fun i hi => q3 i hi ((XInput.rank_le _ _ _).trans hlt.le)
      have h0 := total_nonneg hall ((hJS _ q1).low U hU)
      have he := eps_pos
      have : ((n:ℝ) - dims.prod) * eps ≤ (2 * (dims.prod:ℝ)^2) * eps := by linarith
      have := le_of_mul_le_mul_right this he
      generalize dims.prod = N at this ⊢
      have h5 : (n:ℝ) ≤ ((2 * N^2 + N : ℕ) : ℝ) := by push_cast; linarith
      have := Nat.cast_le.1 h5
      omega
    · omega

/-- a run of at least `N` sweeps is accurate -/
theorem run_accurate (X : XInput dims g h v pts) (hU : X.problem.IsSolution U) {solve : FSM.St XR → Nat → FSM.St XR} {J : Grid XR → Prop} (S : Solver eikS solve) (hP : Post X solve J)
    (hJS : ∀ g', J g' → X.SInv g') {m n : Nat} {a t : FSM.St XR} (hs : Steps (FSM.Step m solve) n a t) (hJ : J a.g) (hd : IsDirs dims.length a.incs)
    (hn : dims.prod ≤ n) (i : Nat) (hi : i < dims.prod) :
    U i ≤ toT (t.g.value i) ∧ toT (t.g.value i) ≤ U i + ((dims.prod * (2 * eps) : ℝ) : WithTop ℝ) := by
  obtain ⟨q1, _, q3, _⟩ := run_near X hU S hP hJS hs hJ hd (fun i hi h0 => rank_zero X hU (hJS _ hJ) hi h0)
  refine ⟨(hJS _ q1).low U hU i hi, (q3 i hi ((XInput.rank_le _ _ _).trans hn)).trans ?_⟩
  have h3 : (XInput.rank dims.prod U i : ℝ) ≤ dims.prod := by exact_mod_cast XInput.rank_le _ _ _
  have he := eps_pos
  have := mul_le_mul_of_nonneg_left h3 (show (0:ℝ) ≤ 2 * eps by linarith)
  apply add_le_add le_rfl
  apply WithTop.coe_le_coe.2
  linarith

end SB

open FSM Off SB
variable {dims : List Nat} {g : Grid XR} {h : ℝ} {v : Nat → ℝ} {pts : List Nat}

/-- **C101** (FSM, count): on any map of `N` cells, with any starts, goal, sweep budget and first sweep direction, FSM performs at most `2N^2 + N + 1` sweeps -/
theorem C101_FSM_sweeps (X : XInput dims g h v pts) (hfr : Fresh g) (goal m sw : Nat) (incs : List Int) (hd : IsDirs dims.length incs) (n : Nat) (t : FSM.St XR)
    (hs : Steps (FSM.Step m (solveFSM goal eikS)) n (initFSM g pts sw incs) t) : n ≤ 2 * dims.prod^2 + dims.prod + 1 :=
  run_count X (solveFSM_solver goal eikS) (post_FSM X goal) (fun _ h => h) hs (initFSM_sinv X hfr sw incs) hd

/-- **C101** (LSM, count) -/
theorem C101_LSM_sweeps (X : XInput dims g h v pts) (hfr : Fresh g) (goal m sw : Nat) (incs : List Int) (hd : IsDirs dims.length incs) (n : Nat) (t : FSM.St XR)
    (hs : Steps (FSM.Step m (solveLSM goal eikS)) n (initLSM g pts sw incs) t) : n ≤ 2 * dims.prod^2 + dims.prod + 1 :=
  run_count X (solveLSM_solver goal eikS) (post_LSM X goal) (fun _ h => h.sinv) hs (LInv.start X hfr sw incs) hd

/-- **C101** (FSM, accuracy while sweeping): after `N` sweeps every time is within twice the margin per cell of the exact one, and stays so, whether or not the
solver has stopped -/
theorem C101_FSM_running (X : XInput dims g h v pts) (hfr : Fresh g) (U : Nat → WithTop ℝ) (hU : X.problem.IsSolution U) (goal m sw : Nat) (incs : List Int)
    (hd : IsDirs dims.length incs) (n : Nat) (hn : dims.prod ≤ n) (t : FSM.St XR) (hs : Steps (FSM.Step m (solveFSM goal eikS)) n (initFSM g pts sw incs) t)
    (i : Nat) (hi : i < dims.prod) : U i ≤ toT (t.g.value i) ∧ toT (t.g.value i) ≤ U i + ((dims.prod * (2 * eps) : ℝ) : WithTop ℝ) :=
  run_accurate X hU (solveFSM_solver goal eikS) (post_FSM X goal) (fun _ h => h) hs (initFSM_sinv X hfr sw incs) hd hn i hi

/-- **C101** (LSM, accuracy while sweeping) -/
theorem C101_LSM_running (X : XInput dims g h v pts) (hfr : Fresh g) (U : Nat → WithTop ℝ) (hU : X.problem.IsSolution U) (goal m sw : Nat) (incs : List Int)
    (hd : IsDirs dims.length incs) (n : Nat) (hn : dims.prod ≤ n) (t : FSM.St XR) (hs : Steps (FSM.Step m (solveLSM goal eikS)) n (initLSM g pts sw incs) t)
    (i : Nat) (hi : i < dims.prod) : U i ≤ toT (t.g.value i) ∧ toT (t.g.value i) ≤ U i + ((dims.prod * (2 * eps) : ℝ) : WithTop ℝ) :=
  run_accurate X hU (solveLSM_solver goal eikS) (post_LSM X goal) (fun _ h => h.sinv) hs (LInv.start X hfr sw incs) hd hn i hi

/-- **C101** (FSM, budget): without goal a sweep budget of one sweep per cell is enough: whenever FSM stops, at a fixed point or because the budget is used up, every time
is within twice the margin per cell of the exact one -/
theorem C101_FSM_budget (X : XInput dims g h v pts) (hfr : Fresh g) (U : Nat → WithTop ℝ) (hU : X.problem.IsSolution U) (goal m sw : Nat)
    (hgoal : dims.prod ≤ goal) (hm : m < 2^32) (hbud : sw + dims.prod ≤ m) (incs : List Int) (hd : IsDirs dims.length incs) (n : Nat) (t : FSM.St XR)
    (hs : Steps (FSM.Step m (solveFSM goal eikS)) n (initFSM g pts sw incs) t) (hdone : FSM.Done m t) (i : Nat) (hi : i < dims.prod) :
    U i ≤ toT (t.g.value i) ∧ toT (t.g.value i) ≤ U i + ((dims.prod * (2 * eps) : ℝ) : WithTop ℝ) := by
  obtain ⟨h1, h2⟩ := C23_FSM_at_most_maxSweeps goal m hm eikS g pts sw (le_trans (Nat.le_add_right _ _) hbud) incs n t hs
  by_cases hlt : t.sweeps < m
  · exact C28_FSM_accuracy X hfr U hU goal m sw hgoal incs hd n t hs hdone hlt i hi
  · exact C101_FSM_running X hfr U hU goal m sw incs hd n (by omega) t hs i hi

/-- **C101** (LSM, budget) -/
theorem C101_LSM_budget (X : XInput dims g h v pts) (hfr : Fresh g) (U : Nat → WithTop ℝ) (hU : X.problem.IsSolution U) (goal m sw : Nat)
    (hgoal : dims.prod ≤ goal) (hm : m < 2^32) (hbud : sw + dims.prod ≤ m) (incs : List Int) (hd : IsDirs dims.length incs) (n : Nat) (t : FSM.St XR)
    (hs : Steps (FSM.Step m (solveLSM goal eikS)) n (initLSM g pts sw incs) t) (hdone : FSM.Done m t) (i : Nat) (hi : i < dims.prod) :
    U i ≤ toT (t.g.value i) ∧ toT (t.g.value i) ≤ U i + ((dims.prod * (2 * eps) : ℝ) : WithTop ℝ) := by
  obtain ⟨h1, h2⟩ := C26_LSM_at_most_maxSweeps goal m hm eikS g pts sw (le_trans (Nat.le_add_right _ _) hbud) incs n t hs
  by_cases hlt : t.sweeps < m
  · exact C28_LSM_accuracy X hfr U hU goal m sw hgoal incs hd n t hs hdone hlt i hi
  · exact C101_LSM_running X hfr U hU goal m sw incs hd n (by omega) t hs i hi

/-- non-vacuity: a 3x3 map with an obstacle in the middle, a budget of 9 sweeps; both solvers run and stop -/
example : ∃ (g : Grid XR), XInput [3,3] g 1 (fun _ => 1) [0] ∧ Fresh g ∧ g.occ 4 = true ∧
    (∃ n t, Steps (FSM.Step 9 (solveFSM noGoal eikS)) n (initFSM g [0] 0 (incs0 [3,3])) t ∧ FSM.Done 9 t) ∧
    (∃ n t, Steps (FSM.Step 9 (solveLSM noGoal eikS)) n (initLSM g [0] 0 (incs0 [3,3])) t ∧ FSM.Done 9 t) := by
  let g0 : Grid XR := { Grid.create (F := XR) [3,3] (fin 1) (0,0) with
    cells := fun i => if i = 4 then { (Grid.create (F := XR) [3,3] (fin 1) (0,0)).cells i with occupancy := fin 0 } else (Grid.create (F := XR) [3,3] (fin 1) (0,0)).cells i }
  have hocc : ∀ i, g0.occ i = decide (i = 4) := by
    intro i
    by_cases h : i = 4
    · subst h
      have e : 0 < eps := by unfold XR.eps; norm_num
      rw [show decide ((4:Nat) = 4) = true from rfl]
      show decide ((0:ℝ) < eps) = true; exact decide_eq_true e
    · have e : eps < 1 := by unfold XR.eps; norm_num
      have : g0.cells i = (Grid.create (F := XR) [3,3] (fin 1) (0,0)).cells i := if_neg h
      unfold Grid.occ
      rw [this, decide_eq_false h]
      show decide ((1:ℝ) < eps) = false; exact decide_eq_false (not_lt.2 e.le)
  have hcell : ∀ i, g0.cells i = if i = 4 then { (Grid.create (F := XR) [3,3] (fin 1) (0,0)).cells i with occupancy := fin 0 } else
      (Grid.create (F := XR) [3,3] (fin 1) (0,0)).cells i := fun i => rfl
  have X : XInput [3,3] g0 1 (fun _ => 1) [0] := by
    refine ⟨⟨by decide, by decide, by decide⟩, by decide, rfl, by decide, one_pos, rfl, fun i hi ho => ?_⟩
    rw [hocc] at ho
    unfold Grid.vel
    rw [hcell, if_neg (of_decide_eq_false ho)]
    rfl
  have hfr : Fresh g0 := by
    refine ⟨fun i => ?_, fun i => ?_, fun i => ?_⟩ <;> by_cases h : i = 4 <;> simp [Grid.value, Grid.state, hcell, h] <;> rfl
  refine ⟨g0, X, hfr, by rw [hocc]; rfl, ?_, ?_⟩
  · obtain ⟨⟨n, s, hs, hd⟩, _⟩ := C23_FSM_exact X hfr noGoal 9 0 _ (incs0_isDirs [3,3])
    exact ⟨n, s, hs, hd⟩
  · obtain ⟨⟨n, s, hs, hd⟩, _⟩ := C26_LSM_exact X hfr noGoal 9 0 _ (incs0_isDirs [3,3])
    exact ⟨n, s, hs, hd⟩

end FMV
