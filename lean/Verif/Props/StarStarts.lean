import Verif.Lemmas.Terminate
import Verif.Props.StarFar
/-
C10 for FMM*: a start that is still waiting in the queue loses its time when a neighbour is expanded.
-/
set_option linter.unusedSectionVars false
set_option linter.unusedVariables false
namespace FMV
open Spec Shape XR FMM

/-- labelling an OPEN free cell -/
theorem relax_new {dims : List Nat} {g : Grid XR} {h : ℝ} {v : Nat → ℝ} {pts : List Nat} (X : XInput dims g h v pts) {cfg : Cfg XR} {s : St XR}
    (hm : SameMap g s.g) (hg : GoodG s.g) {j : Nat} (hj : j < dims.prod) (ho : g.occ j = false) (hst : s.g.state j = .opn) :
    SameMap g (relax cfg eikS s j).g ∧ GoodG (relax cfg eikS s j).g ∧
    (∀ k, tv (relax cfg eikS s j).g k = if k = j then upd (h / v j) (tv s.g j) (mins (Shape.mk' dims) (tv s.g) j) else tv s.g k) ∧
    (∀ k, (relax cfg eikS s j).g.state k = if k = j then .narrow else s.g.state k) ∧ (relax cfg eikS s j).heap = j :: s.heap := by
  have ho' : s.g.occ j = false := (SameMap.occ_eq hm j).trans ho
  have he := X.eik_eq hm hg hj ho
  obtain ⟨a1, a2, _⟩ := tv_relax_pos X (cfg := cfg) hm hg hj
  rcases relax_cases cfg eikS s j with ⟨hh, e⟩ | ⟨_, hn, hb, e⟩ | ⟨_, hn, hb, e⟩ | ⟨_, hn, e⟩
  · rcases hh with hh | hh
    · rw [hst] at hh; cases hh
    · rw [ho'] at hh; cases hh
  · rw [hst] at hn; cases hn
  · rw [hst] at hn; cases hn
  · refine ⟨a1, a2, fun k => ?_, fun k => ?_, ?_⟩
    · rw [e]
      unfold tv; dsimp only; rw [Grid.value_setValue]
      by_cases hk : k = j
      · rw [if_pos hk, if_pos hk, he, toT_ofT]; rfl
      · rw [if_neg hk, if_neg hk, Grid.value_setState, applyHeur_value]; rfl
    · rw [relax_state]
      by_cases hk : k = j
      · rw [if_pos ⟨hk, hst, ho'⟩, if_pos hk]
      · rw [if_neg (fun h => hk h.1), if_neg hk]
    · rw [e]

namespace StarStarts

/-- a corridor of five cells of side 1/2 (the second row is an obstacle); cell 1 is slow -/
noncomputable def row : Grid XR :=
  { shape := Shape.mk' [5,2], leaf := fin (1/2), clean := true,
    cells := fun i => { value := pinf, occupancy := if 5 ≤ i then fin 0 else if i = 1 then fin (1/10) else fin 1, hValue := fin 0, state := .opn, bucket := 0, index := i },
    occupied := [5,6,7,8,9], scratch := (0,0) }

/-- the speeds -/
noncomputable def v (i : Nat) : ℝ := if i = 1 then 1/10 else 1

theorem wall {i : Nat} (hi : 5 ≤ i) : row.occ i = true := by
  show XR.lt (if 5 ≤ i then fin 0 else _) (XR.fin eps) = true
  rw [if_pos hi]; simp [XR.lt, eps_pos]

theorem free {i : Nat} (hi : i < 5) : row.occ i = false := by
  show XR.lt (if 5 ≤ i then fin 0 else if i = 1 then fin (1/10) else fin 1) (XR.fin eps) = false
  rw [if_neg (by omega)]
  have h2 : eps ≤ 1/1000 := by unfold eps; norm_num
  split <;> simp only [XR.lt, decide_eq_false_iff_not, not_lt] <;> linarith

theorem X : XInput [5,2] row (1/2) v [2,4] := by
  refine ⟨⟨by decide, by decide, by decide⟩, by decide, rfl, by decide, by norm_num, rfl, fun i _ ho => ?_⟩
  have hi : i < 5 := by by_contra hi; rw [wall (by omega)] at ho; cases ho
  show (if 5 ≤ i then fin 0 else if i = 1 then fin (1/10) else fin 1) = _
  rw [if_neg (by omega)]
  unfold v
  split <;> rfl

theorem fresh : Fresh row := ⟨fun _ => rfl, fun _ => rfl, fun _ => rfl⟩

/-- FMM* with strategy DISTANCE, goal 0 and the distances `f` -/
def cf (f : Nat → XR) : Cfg XR := ⟨false, .distance, f, 0⟩

theorem tab_eq {i : Nat} (hi : i < 5) :
    getPrecomputedDistance (Shape.mk' [5,2]) (precomputeDistances (Shape.mk' [5,2]) (fun _ => fin 0)) ((Shape.mk' [5,2]).idx2coord 0) i = fin i := by
  rw [C41_heuristic_is_euclidean (dims := [5,2]) ⟨by decide, by decide, by decide⟩ (by decide) (show i < [5,2].prod by simp; omega) (by decide)]
  have e1 : (Shape.mk' [5,2]).idx2coord i = [i, 0] := by
    have : ∀ i < 5, (Shape.mk' [5,2]).idx2coord i = [i, 0] := by decide
    exact this i hi
  have e2 : (Shape.mk' [5,2]).idx2coord 0 = [0, 0] := by decide
  rw [e1, e2]
  unfold euclid
  simp

variable {f : Nat → XR}

theorem hval (hf : ∀ i < 5, f i = fin i) {s : St XR} (HI : HInv (cf f) row [2,4] s) {y : Nat} (hy : y < 5) (hh : y ∈ s.heap) {b : ℝ} (hgd : GoodG s.g)
    (hb : tv s.g y = (b : WithTop ℝ)) : (s.g.cells y).total = fin (b + y) := by
  have h1 : (s.g.cells y).hValue = fin y := by
    rw [HI.lab y (HI.hp y hh)]; show f y = _; exact hf y hy
  have h2 : (s.g.cells y).value = fin b := by
    have h1 := (hgd y).ofT_toT
    unfold tv at hb; rw [hb] at h1; exact h1.symm
  unfold Cell.total
  rw [h1, h2]; rfl

/-- the cells 2 and 3 are expanded first, and start 4 has lost its time -/
theorem two_steps (hf : ∀ i < 5, f i = fin i) : ∃ s : St XR, Steps (StepMin (cf f)) 2 (init (cf f) row [] [2,4]) s ∧ SameMap row s.g ∧ GoodG s.g ∧ 0 < tv s.g 4 := by
  have H0 := HInv.start (cf f) fresh [2,4]
  have hheap0 : (init (cf f) row [] [2,4]).heap = [4,2] := by rw [init_heap]; rfl
  have hstop0 : (init (cf f) row [] [2,4]).stop = false := init_stop _ _ _ _
  have hm0 : SameMap row (init (cf f) row [] [2,4]).g := init_sameMap _ _ _ _
  have hv0 : ∀ k, tv (init (cf f) row [] [2,4]).g k = if k = 2 ∨ k = 4 then ((0:ℝ) : WithTop ℝ) else ⊤ := by
    intro k; unfold tv; rw [init_value]
    by_cases hk : k = 2 ∨ k = 4
    · rw [if_pos (by simpa using hk), if_pos hk]; rfl
    · rw [if_neg (by simpa using hk), if_neg hk]; rfl
  have hg0 : GoodG (init (cf f) row [] [2,4]).g := by
    intro k; rw [init_value]; split
    · exact Or.inr ⟨0, le_refl _, rfl⟩
    · exact Or.inl rfl
  have hs0 : ∀ k, (init (cf f) row [] [2,4]).g.state k = .opn := fun k => by rw [init_state]; rfl
  generalize init (cf f) row [] [2,4] = s0 at *
  have T2 := hval hf H0 (y := 2) (by omega) (by rw [hheap0]; simp) (b := 0) hg0 (by rw [hv0]; simp)
  have T4 := hval hf H0 (y := 4) (by omega) (by rw [hheap0]; simp) (b := 0) hg0 (by rw [hv0]; simp)
  have st1 : StepMin (cf f) s0 (expand (cf f) eikS s0 2) := by
    refine ⟨?_, 2, ⟨by rw [hheap0]; simp, ?_⟩, rfl⟩
    · rintro (h | h)
      · rw [hstop0] at h; cases h
      · rw [hheap0] at h; cases h
    · intro y hy
      rw [hheap0] at hy
      simp only [List.mem_cons, List.not_mem_nil, or_false] at hy
      rcases hy with rfl | rfl
      · rw [T2, T4]; simp only [Arith.lt, XR.lt, decide_eq_false_iff_not, not_lt]; norm_num
      · rw [T2]; simp [Arith.lt, XR.lt]
  have n2 : (Shape.mk' [5,2]).nbrs 2 = [1, 3, 7] := by decide
  have mins1 : ∀ T : Nat → WithTop ℝ, mins (Shape.mk' [5,2]) T 1 = [min (T 0) (min (T 2) ⊤), min (T 6) ⊤] := by intro T; rfl
  have mins3 : ∀ T : Nat → WithTop ℝ, mins (Shape.mk' [5,2]) T 3 = [min (T 2) (min (T 4) ⊤), min (T 8) ⊤] := by intro T; rfl
  have hsh : s0.g.shape = Shape.mk' [5,2] := hm0.shape
  obtain ⟨hh1, hv1, hst1⟩ : (expand (cf f) eikS s0 2).heap = [3,1,4] ∧ (∀ k, tv (expand (cf f) eikS s0 2).g k =
      if k = 3 then ((1/2:ℝ) : WithTop ℝ) else if k = 1 then ((5:ℝ) : WithTop ℝ) else tv s0.g k) ∧ (expand (cf f) eikS s0 2).g.state 4 = .opn := by
    rw [expand_eq, hsh, n2]
    simp only [List.foldl_cons, List.foldl_nil]
    have pm : SameMap row (popped s0 2).g := hm0.trans (popped_sameMap s0 2)
    have pg : GoodG (popped s0 2).g := by intro k; simp only [popped, Grid.value_setState]; exact hg0 k
    have pv : tv (popped s0 2).g = tv s0.g := by funext k; unfold tv; simp [popped]
    have ps : ∀ k, (popped s0 2).g.state k = if k = 2 then .frozen else .opn := by
      intro k; show (s0.g.setState 2 .frozen).state k = _; rw [Grid.state_setState]; split
      · rfl
      · exact hs0 k
    have ph : (popped s0 2).heap = [4] := by show s0.heap.erase 2 = _; rw [hheap0]; rfl
    obtain ⟨a1, a2, a3, a4, a5⟩ := relax_new X (cfg := cf f) pm pg (j := 1) (by decide) (free (by omega)) (by rw [ps]; rfl)
    obtain ⟨b1, b2, b3, b4, b5⟩ := relax_new X (cfg := cf f) a1 a2 (j := 3) (by decide) (free (by omega)) (by rw [a4, ps]; rfl)
    have hskip : relax (cf f) eikS (relax (cf f) eikS (relax (cf f) eikS (popped s0 2) 1) 3) 7 = relax (cf f) eikS (relax (cf f) eikS (popped s0 2) 1) 3 :=
      relax_skip (Or.inr ((SameMap.occ_eq b1 7).trans (wall (by omega))))
    rw [hskip]
    have e1 : upd (1/2 / v 1) (tv (popped s0 2).g 1) (mins (Shape.mk' [5,2]) (tv (popped s0 2).g) 1) = ((5:ℝ) : WithTop ℝ) := by
      rw [pv, mins1]
      have c : (1/2 : ℝ) / v 1 = 5 := by unfold v; norm_num
      have := upd_left (c := 5) (t := 0) (by norm_num) (Ti := ⊤) (y := ⊤) (WithTop.coe_lt_top _) (Or.inl rfl)
      rw [c]
      simpa [hv0] using this
    have e3 : upd (1/2 / v 3) (tv (relax (cf f) eikS (popped s0 2) 1).g 3) (mins (Shape.mk' [5,2]) (tv (relax (cf f) eikS (popped s0 2) 1).g) 3) =
        ((1/2:ℝ) : WithTop ℝ) := by
      rw [mins3]
      have c : (1/2 : ℝ) / v 3 = 1/2 := by unfold v; norm_num
      have := upd_left (c := 1/2) (t := 0) (by norm_num) (Ti := ⊤) (y := ⊤) (WithTop.coe_lt_top _) (Or.inl rfl)
      rw [c]
      simpa [a3, pv, hv0] using this
    refine ⟨?_, fun k => ?_, ?_⟩
    · rw [b5, a5, ph]
    · show tv (relax (cf f) eikS (relax (cf f) eikS (popped s0 2) 1) 3).g k = _
      rw [b3, e3, a3, e1, pv]
    · show (relax (cf f) eikS (relax (cf f) eikS (popped s0 2) 1) 3).g.state 4 = _
      rw [b4, a4, ps]; rfl
  have H1 := H0.step st1.any
  obtain ⟨c1, c2, _, _⟩ := tv_expand_pos X (cfg := cf f) hm0 hg0 (x := 2) (by decide)
  have hstop1 : (expand (cf f) eikS s0 2).stop = false := by
    rw [expand_eq]; dsimp only
    rw [hstop0, if_neg (by show (2:Nat) ≠ 0; decide)]
  generalize expand (cf f) eikS s0 2 = s1 at *
  have U3 := hval hf H1 (y := 3) (by omega) (by rw [hh1]; simp) (b := 1/2) c2 (by rw [hv1]; rfl)
  have U1 := hval hf H1 (y := 1) (by omega) (by rw [hh1]; simp) (b := 5) c2 (by rw [hv1]; rfl)
  have U4 := hval hf H1 (y := 4) (by omega) (by rw [hh1]; simp) (b := 0) c2 (by rw [hv1, hv0]; simp)
  have st2 : StepMin (cf f) s1 (expand (cf f) eikS s1 3) := by
    refine ⟨?_, 3, ⟨by rw [hh1]; simp, ?_⟩, rfl⟩
    · rintro (h | h)
      · rw [hstop1] at h; cases h
      · rw [hh1] at h; cases h
    · intro y hy
      rw [hh1] at hy
      simp only [List.mem_cons, List.not_mem_nil, or_false] at hy
      rcases hy with rfl | rfl | rfl
      · rw [U3]; simp [Arith.lt, XR.lt]
      · rw [U3, U1]; simp only [Arith.lt, XR.lt, decide_eq_false_iff_not, not_lt]; norm_num
      · rw [U3, U4]; simp only [Arith.lt, XR.lt, decide_eq_false_iff_not, not_lt]; norm_num
  obtain ⟨d1, d2, _, d4⟩ := tv_expand_pos X (cfg := cf f) c1 c2 (x := 3) (by decide)
  exact ⟨_, .tail (.tail (.refl _) st1) st2, d1, d2, d4 4 (by decide) (free (by omega)) hst1⟩

theorem keeps (hf : ∀ i < 5, f i = fin i) {m : Nat} {s t : St XR} (hheap : ∀ n u, Steps (StepMin (cf f)) n s u → ∀ x ∈ u.heap, x < [5,2].prod)
    (hs : Steps (StepMin (cf f)) m s t) (h1 : SameMap row s.g) (h2 : GoodG s.g) (h3 : 0 < tv s.g 4) : SameMap row t.g ∧ GoodG t.g ∧ 0 < tv t.g 4 := by
  induction hs with
  | refl => exact ⟨h1, h2, h3⟩
  | @tail m s t u hst hu ih =>
    obtain ⟨i1, i2, i3⟩ := ih hheap h1 h2 h3
    obtain ⟨_, x, ⟨hx, _⟩, rfl⟩ := hu
    obtain ⟨d1, d2, d3, _⟩ := tv_expand_pos X (cfg := cf f) i1 i2 (hheap _ _ hst x hx)
    exact ⟨d1, d2, d3 4 i3⟩

end StarStarts

open StarStarts in
/-- **C10 is false for FMM***, even for starts that are not neighbours: in a corridor with the starts 2 and 4, the goal 0 and the library's own distance table there is a complete
run with a correctly ordered queue (and two first iterations all of whose continuations do the same) at whose end start 4 does not have time 0: it was still waiting in the
queue with a large heuristic value, marked OPEN, when its neighbour was expanded. -/
theorem C10_refuted_star : ∃ (g : Grid XR) (cfg : Cfg XR) (v : Nat → ℝ) (X : XInput [5,2] g (1/2) v [2,4]), Fresh g ∧ StartsApart [5,2] g [2,4] ∧ g.occ 2 = false ∧
    g.occ 4 = false ∧ g.occ 0 = false ∧ cfg.heur = .distance ∧ cfg.goal = 0 ∧
    cfg.hdist = getPrecomputedDistance (Shape.mk' [5,2]) (precomputeDistances (Shape.mk' [5,2]) (fun _ => fin 0)) ((Shape.mk' [5,2]).idx2coord 0) ∧
    ∃ s, Steps (StepMin cfg) 2 (FMM.init cfg g [] [2,4]) s ∧ (∀ m t, Steps (StepMin cfg) m s t → t.g.value 4 ≠ fin 0) ∧
      ∃ m t, Steps (StepMin cfg) m s t ∧ Done t := by
  have tab : ∀ i < 5, getPrecomputedDistance (Shape.mk' [5,2]) (precomputeDistances (Shape.mk' [5,2]) (fun _ => fin 0)) ((Shape.mk' [5,2]).idx2coord 0) i = fin i :=
    fun i hi => tab_eq hi
  generalize getPrecomputedDistance (Shape.mk' [5,2]) (precomputeDistances (Shape.mk' [5,2]) (fun _ => fin 0)) ((Shape.mk' [5,2]).idx2coord 0) = f at tab
  obtain ⟨s, h1, h2, h3, h4⟩ := two_steps tab
  have hin : Input [5,2] row [2,4] := ⟨X.fits, X.shape, X.inside⟩
  refine ⟨row, cf f, v, X, fresh, ?_, free (by omega), free (by omega), free (by omega), rfl, rfl, rfl, s, h1, fun m t ht => ?_, ?_⟩
  · intro i hi j hj _
    simp only [List.mem_cons, List.not_mem_nil, or_false] at hi hj
    intro had
    have hi5 : i < [5,2].prod := by rcases hi with rfl | rfl <;> decide
    have := (axisAdjacent_iff X.fits hi5).2 ⟨by rcases hj with rfl | rfl <;> decide, had⟩
    rcases hi with rfl | rfl <;> rcases hj with rfl | rfl <;> revert this <;> decide
  · have := (keeps tab (fun n u hu => (FMM.heap_lt hin ((FMV.Steps.append h1 hu).mono (fun _ _ => StepMin.any))).2) ht h2 h3 h4).2.2
    intro hc
    unfold tv at this; rw [hc] at this; simp at this
  · obtain ⟨n, t, _, h5, h6⟩ := FMM.exists_done (step := StepMin (cf f)) (done := Done) (s0 := s) ([5,2].prod + 2)
      (fun n t ht => by
        have := C13_FMM_linear (cf f) rfl [5,2] row [2,4] hin _ _ ((FMV.Steps.append h1 ht).mono (fun _ _ => StepMin.any))
        simp only [List.length_cons, List.length_nil] at this
        omega)
      (fun t ht => by
        have hne : t.heap ≠ [] := fun h => ht (Or.inr h)
        obtain ⟨x, hx, hmin⟩ := FMM.exists_min XR.ltLaws (fun y => (t.g.cells y).total) t.heap hne
        exact ⟨_, ht, x, ⟨hx, hmin⟩, rfl⟩)
    exact ⟨n, t, h5, h6⟩

end FMV
