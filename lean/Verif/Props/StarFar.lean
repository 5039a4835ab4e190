import Verif.Props.StarWrong
import Mathlib.Tactic.LinearCombination
/-
C62: with a heuristic that is not consistent the time FMM* leaves at the goal is not even close to that of the best route along the axes.
-/
set_option linter.unusedSectionVars false
set_option linter.unusedVariables false
namespace FMV
open Spec Shape XR FMM

/-- the exact time of a cell is at most the time of any route to it -/
theorem exact_le_route {dims : List Nat} {g : Grid XR} {h : ℝ} {v : Nat → ℝ} {p : Nat} (X : XInput dims g h v [p]) {U : Nat → WithTop ℝ}
    (hU : X.problem.IsSolution U) {i n : Nat} {t : ℝ}
    (r : Route dims (Shape.mk' dims).idx2coord (fun i => g.occ i = false) (fun i => h / v i) p i t n) : U i ≤ (t : WithTop ℝ) := by
  have E := X.exSol hU
  have hp : p < dims.prod := X.inside p (by simp)
  have key : ∀ {i t n}, Route dims (Shape.mk' dims).idx2coord (fun i => g.occ i = false) (fun i => h / v i) p i t n → U i ≤ (t : WithTop ℝ) ∧ 0 ≤ t := by
    intro i t n r
    induction r with
    | start => rw [(E p hp).1 (by simp)]; exact ⟨le_refl _, le_refl _⟩
    | @move i j t n r h1 h2 h3 ih =>
      have hc := X.cpos h1 h2
      refine ⟨?_, by linarith [ih.2]⟩
      by_cases hjp : j = p
      · subst hjp
        rw [(E j hp).1 (by simp)]
        exact_mod_cast (by linarith [ih.2] : (0:ℝ) ≤ t + h / v j)
      have hij : i ∈ (Shape.mk' dims).nbrs j :=
        nbrs_symm X.fits (route_lt hp r).1 ((axisAdjacent_iff X.fits (route_lt hp r).1).2 ⟨h1, h3⟩)
      obtain ⟨m, hm, hmi⟩ := XInput.mins_le (T := U) hij
      have hmt : m ≤ (t : WithTop ℝ) := hmi.trans ih.1
      rcases (E j h1).2.2 (by simpa using hjp) (by simp [h2]) with ⟨x, hx, hres⟩ | ⟨_, hall⟩
      · rw [hx]
        have h5 := posSq_anti x hmt
        have h6 := posSq_le_residL (X := x) hm
        rw [hres] at h6
        rw [posSq_coe] at h5
        have h7 : max (x - t) 0 ≤ h / v j := (abs_le_of_sq_le_sq' (h5.trans h6) hc.le).2
        have : x - t ≤ h / v j := (le_max_left _ _).trans h7
        exact_mod_cast (by linarith : x ≤ t + h / v j)
      · rw [hall m hm] at hmt
        exact absurd hmt (not_le.2 (WithTop.coe_lt_top _))
  exact (key r).1

namespace StarFar

/-- a 3 x 3 map with an obstacle in the middle and unit cells; crossing cell `i` takes `c i` -/
noncomputable def ring (c : Nat → ℝ) : Grid XR :=
  { shape := Shape.mk' [3,3], leaf := fin 1, clean := true,
    cells := fun i => { value := pinf, occupancy := if i = 4 then fin 0 else fin (1 / c i), hValue := fin 0, state := .opn, bucket := 0, index := i },
    occupied := [4], scratch := (0,0) }

variable {c : Nat → ℝ}

theorem occ4 : (ring c).occ 4 = true := by
  show XR.lt (if (4:Nat) = 4 then fin 0 else fin (1 / c 4)) (XR.fin eps) = true
  rw [if_pos rfl]; simp [XR.lt, eps_pos]

theorem occ (hc : ∀ i, 0 < c i ∧ c i ≤ 1000) {i : Nat} (hi : i ≠ 4) : (ring c).occ i = false := by
  show XR.lt (if i = 4 then fin 0 else fin (1 / c i)) (XR.fin eps) = false
  rw [if_neg hi]
  simp only [XR.lt, decide_eq_false_iff_not, not_lt]
  have h1 : (1:ℝ) / 1000 ≤ 1 / c i := one_div_le_one_div_of_le (hc i).1 (hc i).2
  have h2 : eps ≤ 1/1000 := by unfold eps; norm_num
  linarith

theorem X (hc : ∀ i, 0 < c i ∧ c i ≤ 1000) : XInput [3,3] (ring c) 1 (fun i => 1 / c i) [0] := by
  refine ⟨⟨by decide, by decide, by decide⟩, by decide, rfl, by decide, one_pos, rfl, fun i _ ho => ?_⟩
  have hi : i ≠ 4 := by rintro rfl; rw [occ4] at ho; cases ho
  show (if i = 4 then fin 0 else fin (1 / c i)) = _
  rw [if_neg hi]

theorem fresh : Fresh (ring c) := ⟨fun _ => rfl, fun _ => rfl, fun _ => rfl⟩

/-- times, states and queue of `s` -/
structure At (c : Nat → ℝ) (L : List (WithTop ℝ)) (S : List FMState) (hp : List Nat) (s : St XR) : Prop where
  map : SameMap (ring c) s.g
  good : GoodG s.g
  val : tv s.g = fun k => L.getD k ⊤
  st : ∀ k, s.g.state k = S.getD k .opn
  heap : s.heap = hp

variable {cfg : Cfg XR} {L : List (WithTop ℝ)} {S : List FMState} {hp : List Nat} {s : St XR}

theorem At.skip (A : At c L S hp s) (j : Nat) (hj : S.getD j .opn = .frozen) : At c L S hp (relax cfg eikS s j) := by
  rw [relax_skip (Or.inl ((A.st j).trans hj))]; exact A

theorem At.wall (A : At c L S hp s) : At c L S hp (relax cfg eikS s 4) := by
  rw [relax_skip (Or.inr ((SameMap.occ_eq A.map 4).trans occ4))]; exact A

theorem At.new (hc : ∀ i, 0 < c i ∧ c i ≤ 1000) (A : At c L S hp s) (j : Nat) (hj9 : j < 9) (hj4 : j ≠ 4) (hL : L.length = 9) (hS : S.length = 9)
    (hj : S.getD j .opn = .opn) {u : ℝ}
    (hu : upd (c j) (L.getD j ⊤) (mins (Shape.mk' [3,3]) (fun k => L.getD k ⊤) j) = (u : WithTop ℝ)) :
    At c (L.set j (u : WithTop ℝ)) (S.set j .narrow) (j :: hp) (relax cfg eikS s j) := by
  have ho : s.g.occ j = false := (SameMap.occ_eq A.map j).trans (occ hc hj4)
  have he := (X hc).eik_eq A.map A.good (show j < [3,3].prod by simpa using hj9) (occ hc hj4)
  have hcj : 1 / (1 / c j) = c j := one_div_one_div _
  have hsj : s.g.state j = .opn := (A.st j).trans hj
  obtain ⟨a1, a2, _⟩ := tv_relax_pos (X hc) (cfg := cfg) A.map A.good (show j < [3,3].prod by simpa using hj9)
  rcases relax_cases cfg eikS s j with ⟨hh, e⟩ | ⟨_, hn, hb, e⟩ | ⟨_, hn, hb, e⟩ | ⟨_, hn, e⟩
  · rcases hh with hh | hh
    · rw [hsj] at hh; cases hh
    · rw [ho] at hh; cases hh
  · rw [hsj] at hn; cases hn
  · rw [hsj] at hn; cases hn
  · refine ⟨a1, a2, ?_, fun k => ?_, ?_⟩
    · funext k
      rw [StarWrong.getD_set _ _ _ _ _ (by omega), e]
      unfold tv; dsimp only; rw [Grid.value_setValue]
      by_cases hk : k = j
      · rw [if_pos hk, if_pos hk, he, toT_ofT, A.val]; rw [← hu, hcj]
      · rw [if_neg hk, if_neg hk, Grid.value_setState, applyHeur_value]
        exact congrFun A.val k
    · rw [relax_state, StarWrong.getD_set _ _ _ _ _ (by omega)]
      by_cases hk : k = j
      · rw [if_pos ⟨hk, hsj, ho⟩, if_pos hk]
      · rw [if_neg (fun h => hk h.1), if_neg hk]; exact A.st k
    · rw [e]; show j :: s.heap = _; rw [A.heap]

theorem At.pop (A : At c L S hp s) (x : Nat) (hx : x < 9) (hS : S.length = 9) : At c L (S.set x .frozen) (hp.erase x) (popped s x) := by
  refine ⟨A.map.trans (popped_sameMap s x), ?_, ?_, fun k => ?_, ?_⟩
  · intro k; simp only [popped, Grid.value_setState]; exact A.good k
  · rw [← A.val]; funext k; unfold tv; simp [popped]
  · rw [StarWrong.getD_set _ _ _ _ _ (by omega), popped]; dsimp only; rw [Grid.state_setState]
    split
    · rfl
    · exact A.st k
  · show s.heap.erase x = _; rw [A.heap]

theorem At.value (A : At c L S hp s) {y : Nat} {b : ℝ} (hb : L.getD y ⊤ = ((b : ℝ) : WithTop ℝ)) : (s.g.cells y).value = fin b := by
  have h1 := (A.good y).ofT_toT
  have h2 : tv s.g y = (b : WithTop ℝ) := by rw [A.val]; exact hb
  unfold tv at h2; rw [h2] at h1; exact h1.symm

/-- `x` may be popped -/
theorem At.top {K : Nat → ℝ} (hK : ∀ i < 9, i ≠ 4 → heurOf cfg (ring c) i = fin (K i)) (A : At c L S hp s) (HI : HInv cfg (ring c) [0] s)
    (hns : s.stop = false) (x : Nat) (hxm : x ∈ hp) (hheap : ∀ y ∈ hp, y < 9 ∧ y ≠ 4)
    (a : ℝ) (ha : L.getD x ⊤ = (a : WithTop ℝ)) (hmin : ∀ y ∈ hp, ∃ b : ℝ, L.getD y ⊤ = (b : WithTop ℝ) ∧ a + K x ≤ b + K y) :
    StepMin cfg s (expand cfg eikS s x) := by
  have hh : ∀ y ∈ hp, (s.g.cells y).hValue = fin (K y) := by
    intro y hy
    rw [HI.lab y (HI.hp y (by rw [A.heap]; exact hy))]
    exact hK y (hheap y hy).1 (hheap y hy).2
  refine ⟨?_, x, ⟨by rw [A.heap]; exact hxm, ?_⟩, rfl⟩
  · rintro (h | h)
    · rw [hns] at h; cases h
    · rw [A.heap] at h; rw [h] at hxm; cases hxm
  · intro y hy
    rw [A.heap] at hy
    unfold Cell.total
    obtain ⟨b, hb, hle⟩ := hmin y hy
    rw [hh y hy, hh x hxm, A.value ha, A.value hb]
    simp only [Arith.add, XR.add, Arith.lt, XR.lt, decide_eq_false_iff_not, not_lt]
    exact hle

theorem At.stop (A : At c L S hp s) (b : Bool) : At c L S hp { s with stop := b } := ⟨A.map, A.good, A.val, A.st, A.heap⟩

/-- an iteration that pops `x` -/
theorem At.step (hg : cfg.goal = 8) {K : Nat → ℝ} (hK : ∀ i < 9, i ≠ 4 → heurOf cfg (ring c) i = fin (K i)) (A : At c L S hp s)
    (HI : HInv cfg (ring c) [0] s) (hns : s.stop = false) (x : Nat) (hx : x < 8) (hS : S.length = 9) (hxm : x ∈ hp) (hheap : ∀ y ∈ hp, y < 9 ∧ y ≠ 4)
    (a : ℝ) (ha : L.getD x ⊤ = (a : WithTop ℝ)) (hmin : ∀ y ∈ hp, ∃ b : ℝ, L.getD y ⊤ = (b : WithTop ℝ) ∧ a + K x ≤ b + K y) {L' S' hp'}
    (hfold : ∀ s', At c L (S.set x .frozen) (hp.erase x) s' → At c L' S' hp' (((Shape.mk' [3,3]).nbrs x).foldl (relax cfg eikS) s')) :
    ∃ s', StepMin cfg s s' ∧ At c L' S' hp' s' ∧ HInv cfg (ring c) [0] s' ∧ s'.stop = false := by
  have hstep := A.top hK HI hns x hxm hheap a ha hmin
  refine ⟨_, hstep, ?_, HI.step hstep.any, ?_⟩
  · have hsh : s.g.shape = Shape.mk' [3,3] := A.map.shape
    have B := hfold _ (A.pop x (by omega) hS)
    rw [expand_eq, hsh]
    exact B.stop _
  · rw [expand_eq]
    dsimp only
    rw [hns, if_neg (by omega)]

/-- A run of FMM* around the ring by the cells 3, 6 and 7, if the total values of these stay below that of cell 1. -/
theorem around (hc : ∀ i, 0 < c i ∧ c i ≤ 1000) (hg : cfg.goal = 8) {K : Nat → ℝ} (hK : ∀ i < 9, i ≠ 4 → heurOf cfg (ring c) i = fin (K i))
    (h3 : c 3 + K 3 ≤ c 1 + K 1) (h6 : c 3 + c 6 + K 6 ≤ c 1 + K 1) (h7 : c 3 + c 6 + c 7 + K 7 ≤ c 1 + K 1)
    (h8 : c 3 + c 6 + c 7 + c 8 + K 8 ≤ c 1 + K 1) :
    ∃ (n : Nat) (s : St XR), Steps (StepMin cfg) n (init cfg (ring c) [] [0]) s ∧ Done s ∧ s.g.state 8 = .frozen ∧
      s.g.value 8 = fin (c 3 + c 6 + c 7 + c 8) := by
  have A0 : At c [((0:ℝ) : WithTop ℝ), ⊤, ⊤, ⊤, ⊤, ⊤, ⊤, ⊤, ⊤] [.opn, .opn, .opn, .opn, .opn, .opn, .opn, .opn, .opn] [0] (init cfg (ring c) [] [0]) := by
    refine ⟨init_sameMap _ _ _ _, ?_, ?_, ?_, by rw [init_heap]; rfl⟩
    · intro k; rw [init_value]; split
      · exact Or.inr ⟨0, le_refl _, rfl⟩
      · exact Or.inl rfl
    · funext k; unfold tv; rw [init_value]
      match k with
      | 0 => rfl
      | 1 => rfl
      | 2 => rfl
      | 3 => rfl
      | 4 => rfl
      | 5 => rfl
      | 6 => rfl
      | 7 => rfl
      | 8 => rfl
      | k + 9 => simp; rfl
    · intro k; rw [init_state]
      match k with
      | 0 => rfl
      | 1 => rfl
      | 2 => rfl
      | 3 => rfl
      | 4 => rfl
      | 5 => rfl
      | 6 => rfl
      | 7 => rfl
      | 8 => rfl
      | k + 9 => simp; rfl
  have c0 : ∀ x : ℝ, (x : WithTop ℝ) < ⊤ := fun x => WithTop.coe_lt_top x
  obtain ⟨s1, t1, A1, I1, p1⟩ := A0.step hg hK (HInv.start cfg fresh [0]) (init_stop _ _ _ _) 0 (by norm_num) rfl (by simp) (by decide) 0 rfl
    (by intro y hy; simp at hy; subst hy; exact ⟨0, rfl, le_refl _⟩)
    (L' := [((0:ℝ) : WithTop ℝ), (c 1 : WithTop ℝ), ⊤, (c 3 : WithTop ℝ), ⊤, ⊤, ⊤, ⊤, ⊤])
    (S' := [.frozen, .narrow, .opn, .narrow, .opn, .opn, .opn, .opn, .opn]) (hp' := [3, 1])
    (by
      intro s' B
      have B1 := B.new (cfg := cfg) hc 1 (by norm_num) (by norm_num) rfl rfl rfl (u := c 1) (by
        show upd (c 1) ⊤ [min ((0:ℝ) : WithTop ℝ) (min ⊤ ⊤), min ⊤ ⊤] = _
        rw [min_top_right, min_top_right, upd_left (hc 1).1 (c0 0) (Or.inl rfl), zero_add])
      have B2 := B1.new (cfg := cfg) hc 3 (by norm_num) (by norm_num) rfl rfl rfl (u := c 3) (by
        show upd (c 3) ⊤ [min ⊤ ⊤, min ((0:ℝ) : WithTop ℝ) (min ⊤ ⊤)] = _
        rw [min_top_right, min_top_right, upd_right (hc 3).1 (c0 0) (Or.inl rfl), zero_add])
      exact B2)
  obtain ⟨s2, t2, A2, I2, p2⟩ := A1.step hg hK I1 p1 3 (by norm_num) rfl (by simp) (by decide) (c 3) rfl
    (by
      intro y hy; simp at hy
      rcases hy with rfl | rfl
      · exact ⟨_, rfl, le_refl _⟩
      · exact ⟨_, rfl, h3⟩)
    (L' := [((0:ℝ) : WithTop ℝ), (c 1 : WithTop ℝ), ⊤, (c 3 : WithTop ℝ), ⊤, ⊤, ((c 3 + c 6 : ℝ) : WithTop ℝ), ⊤, ⊤])
    (S' := [.frozen, .narrow, .opn, .frozen, .opn, .opn, .narrow, .opn, .opn]) (hp' := [6, 1])
    (by
      intro s' B
      have B1 := B.wall (cfg := cfg)
      have B2 := B1.skip (cfg := cfg) 0 rfl
      have B3 := B2.new (cfg := cfg) hc 6 (by norm_num) (by norm_num) rfl rfl rfl (u := c 3 + c 6) (by
        show upd (c 6) ⊤ [min ⊤ ⊤, min (c 3 : WithTop ℝ) ⊤] = _
        rw [min_top_right, min_top_right, upd_right (hc 6).1 (c0 _) (Or.inl rfl)])
      exact B3)
  obtain ⟨s3, t3, A3, I3, p3⟩ := A2.step hg hK I2 p2 6 (by norm_num) rfl (by simp) (by decide) (c 3 + c 6) rfl
    (by
      intro y hy; simp at hy
      rcases hy with rfl | rfl
      · exact ⟨_, rfl, le_refl _⟩
      · exact ⟨_, rfl, h6⟩)
    (L' := [((0:ℝ) : WithTop ℝ), (c 1 : WithTop ℝ), ⊤, (c 3 : WithTop ℝ), ⊤, ⊤, ((c 3 + c 6 : ℝ) : WithTop ℝ), ((c 3 + c 6 + c 7 : ℝ) : WithTop ℝ), ⊤])
    (S' := [.frozen, .narrow, .opn, .frozen, .opn, .opn, .frozen, .narrow, .opn]) (hp' := [7, 1])
    (by
      intro s' B
      have B1 := B.new (cfg := cfg) hc 7 (by norm_num) (by norm_num) rfl rfl rfl (u := c 3 + c 6 + c 7) (by
        show upd (c 7) ⊤ [min ((c 3 + c 6 : ℝ) : WithTop ℝ) (min ⊤ ⊤), min ⊤ ⊤] = _
        rw [min_top_right, min_top_right, upd_left (hc 7).1 (c0 _) (Or.inl rfl)])
      exact B1.skip (cfg := cfg) 3 rfl)
  obtain ⟨s4, t4, A4, I4, p4⟩ := A3.step hg hK I3 p3 7 (by norm_num) rfl (by simp) (by decide) (c 3 + c 6 + c 7) rfl
    (by
      intro y hy; simp at hy
      rcases hy with rfl | rfl
      · exact ⟨_, rfl, le_refl _⟩
      · exact ⟨_, rfl, h7⟩)
    (L' := [((0:ℝ) : WithTop ℝ), (c 1 : WithTop ℝ), ⊤, (c 3 : WithTop ℝ), ⊤, ⊤, ((c 3 + c 6 : ℝ) : WithTop ℝ), ((c 3 + c 6 + c 7 : ℝ) : WithTop ℝ),
      ((c 3 + c 6 + c 7 + c 8 : ℝ) : WithTop ℝ)])
    (S' := [.frozen, .narrow, .opn, .frozen, .opn, .opn, .frozen, .frozen, .narrow]) (hp' := [8, 1])
    (by
      intro s' B
      have B1 := B.skip (cfg := cfg) 6 rfl
      have B2 := B1.new (cfg := cfg) hc 8 (by norm_num) (by norm_num) rfl rfl rfl (u := c 3 + c 6 + c 7 + c 8) (by
        show upd (c 8) ⊤ [min ((c 3 + c 6 + c 7 : ℝ) : WithTop ℝ) ⊤, min ⊤ ⊤] = _
        rw [min_top_right, min_top_right, upd_left (hc 8).1 (c0 _) (Or.inl rfl)])
      exact B2.wall (cfg := cfg))
  have t5 := A4.top hK I4 p4 8 (by simp) (by decide) (c 3 + c 6 + c 7 + c 8) rfl
    (by
      intro y hy; simp at hy
      rcases hy with rfl | rfl
      · exact ⟨_, rfl, le_refl _⟩
      · exact ⟨_, rfl, h8⟩)
  refine ⟨5, _, .tail (.tail (.tail (.tail (.tail (.refl _) t1) t2) t3) t4) t5, Or.inl ?_, expand_x_frozen, ?_⟩
  · rw [expand_eq]; dsimp only; rw [if_pos hg.symm]
  · have : (expand cfg eikS s4 8).g.value 8 = s4.g.value 8 := by
      refine (expand_inv (I := fun t : St XR => t.g.value 8 = s4.g.value 8 ∧ t.g.state 8 = .frozen) cfg eikS s4 8 (fun _ _ h => h) ?_ ?_).1
      · exact ⟨by simp [popped], by simp [popped, Grid.state_setState]⟩
      · intro t j _ ht
        have e : (relax cfg eikS t j).g.cells 8 = t.g.cells 8 := relax_cells_protected (Or.inl ht.2)
        unfold Grid.value Grid.state at *
        rw [e]; exact ht
    rw [this]
    exact A4.value rfl

/-- the route by the cells 1, 2 and 5 -/
theorem route (hc : ∀ i, 0 < c i ∧ c i ≤ 1000) : Route [3,3] (Shape.mk' [3,3]).idx2coord (fun i => (ring c).occ i = false) (fun i => 1 / (1 / c i)) 0 8
    (c 1 + c 2 + c 5 + c 8) 4 := by
  have adj : ∀ i j, i < 9 → j ∈ (Shape.mk' [3,3]).nbrs i → AxisAdjacent ((Shape.mk' [3,3]).idx2coord i) ((Shape.mk' [3,3]).idx2coord j) :=
    fun i j hi hj => ((axisAdjacent_iff (dims := [3,3]) (X hc).fits (by simpa using hi)).1 hj).2
  have r : Route [3,3] (Shape.mk' [3,3]).idx2coord (fun i => (ring c).occ i = false) (fun i => 1 / (1 / c i)) 0 8 _ 4 :=
    .move (.move (.move (.move .start (j := 1) (by decide) (occ hc (by decide)) (adj 0 1 (by decide) (by decide)))
    (j := 2) (by decide) (occ hc (by decide)) (adj 1 2 (by decide) (by decide)))
    (j := 5) (by decide) (occ hc (by decide)) (adj 2 5 (by decide) (by decide)))
    (j := 8) (by decide) (occ hc (by decide)) (adj 5 8 (by decide) (by decide))
  simp only [one_div_one_div, zero_add] at r
  simpa only [one_div_one_div] using r

end StarFar

/-- **C62**, DISTANCE without the hypothesis of `C62_distance_partial`: for every factor `M` there is a map and a run of FMM* with the DISTANCE heuristic, the library's
table and an ordered queue that stops with a goal time more than `M` times the time of a route along the axes, and so of the exact time. -/
theorem C62_distance_far_off (M : ℝ) : ∃ (g : Grid XR) (cfg : Cfg XR) (v : Nat → ℝ) (X : XInput [3,3] g 1 v [0]), Fresh g ∧ cfg.heur = .distance ∧ cfg.goal = 8 ∧
    cfg.hdist = getPrecomputedDistance (Shape.mk' [3,3]) (precomputeDistances (Shape.mk' [3,3]) (fun _ => fin 0)) ((Shape.mk' [3,3]).idx2coord 8) ∧
    ∃ (n : Nat) (s : St XR) (d t : ℝ), Steps (StepMin cfg) n (init cfg g [] [0]) s ∧ Done s ∧ s.g.state 8 = .frozen ∧ s.g.value 8 = fin d ∧
      0 < t ∧ Route [3,3] (Shape.mk' [3,3]).idx2coord (fun i => g.occ i = false) (fun i => 1 / v i) 0 8 t 4 ∧ M * t < d ∧
      ∀ U, X.problem.IsSolution U → U 8 ≤ (t : WithTop ℝ) := by
  let M' : ℝ := max M 1
  have hM1 : 1 ≤ M' := le_max_right _ _
  let τ : ℝ := 1 / (100 * M')
  have hτ : 0 < τ := by positivity
  have hτ1 : τ * M' = 1 / 100 := by show 1 / (100 * M') * M' = _; field_simp
  have hτ2 : τ ≤ 1 / 100 := by rw [← hτ1]; exact le_mul_of_one_le_right hτ.le hM1
  let c : Nat → ℝ := fun i => if i = 1 then 2 * τ else if i = 6 ∨ i = 7 then 3 * M' * τ else τ
  have hc : ∀ i, 0 < c i ∧ c i ≤ 1000 := by
    intro i
    show 0 < (if i = 1 then 2 * τ else if i = 6 ∨ i = 7 then 3 * M' * τ else τ) ∧ (if i = 1 then 2 * τ else if i = 6 ∨ i = 7 then 3 * M' * τ else τ) ≤ 1000
    split
    · constructor <;> linarith
    · split
      · have : 3 * M' * τ = 3 / 100 := by linear_combination 3 * hτ1
        rw [this]; norm_num
      · constructor <;> linarith
  have c1 : c 1 = 2 * τ := rfl
  have c2 : c 2 = τ := by simp [c]
  have c3 : c 3 = τ := by simp [c]
  have c5 : c 5 = τ := by simp [c]
  have c6 : c 6 = 3 / 100 := by simp [c]; linear_combination 3 * hτ1
  have c7 : c 7 = 3 / 100 := by simp [c]; linear_combination 3 * hτ1
  have c8 : c 8 = τ := by simp [c]
  have hs5 : (2236/1000 : ℝ) ≤ Real.sqrt 5 := Real.le_sqrt_of_sq_le (by norm_num)
  have cfh : ∀ f : Nat → XR, ∀ g i, heurOf (StarWrong.cf f) g i = f i := fun _ _ _ => rfl
  obtain ⟨n, s, h1, h2, h3, h4⟩ := StarFar.around (c := c) hc (StarWrong.cf_goal
      (getPrecomputedDistance (Shape.mk' [3,3]) (precomputeDistances (Shape.mk' [3,3]) (fun _ => fin 0)) ((Shape.mk' [3,3]).idx2coord 8)))
    (K := StarWrong.H) (fun i hi _ => by rw [cfh]; exact StarWrong.tab_eq hi)
    (by rw [StarWrong.H1, StarWrong.H3, c1, c3]; linarith)
    (by rw [StarWrong.H1, StarWrong.H6, c1, c3, c6]; linarith)
    (by rw [StarWrong.H1, StarWrong.H7, c1, c3, c6, c7]; linarith)
    (by rw [StarWrong.H1, StarWrong.H8, c1, c3, c6, c7, c8]; linarith)
  refine ⟨StarFar.ring c, StarWrong.cf _, fun i => 1 / c i, StarFar.X hc, StarFar.fresh, StarWrong.cf_heur _, StarWrong.cf_goal _, StarWrong.cf_hdist _,
    n, s, _, c 1 + c 2 + c 5 + c 8, h1, h2, h3, h4, ?_, StarFar.route hc, ?_, fun U hU => exact_le_route (StarFar.X hc) hU (StarFar.route hc)⟩
  · rw [c1, c2, c5, c8]; linarith
  · rw [c1, c2, c3, c5, c6, c7, c8]
    have : M * τ ≤ 1 / 100 := by
      rw [← hτ1, mul_comm τ]; exact mul_le_mul_of_nonneg_right (le_max_left _ _) hτ.le
    have : M * (2 * τ + τ + τ + τ) = 5 * (M * τ) := by ring
    linarith

/-- **C62**, TIME without uniform speed: on the ring with crossing times 10, 1, 1 one way and 8, 8, 8 the other way FMM* with the TIME heuristic and an
ordered queue stops with the goal time 25, although a route takes 13. -/
theorem C62_time_not_route : ∃ (g : Grid XR) (cfg : Cfg XR) (v : Nat → ℝ) (X : XInput [3,3] g 1 v [0]), Fresh g ∧ cfg.heur = .time ∧ cfg.goal = 8 ∧
    cfg.hdist = getPrecomputedDistance (Shape.mk' [3,3]) (precomputeDistances (Shape.mk' [3,3]) (fun _ => fin 0)) ((Shape.mk' [3,3]).idx2coord 8) ∧
    ∃ (n : Nat) (s : St XR), Steps (StepMin cfg) n (init cfg g [] [0]) s ∧ Done s ∧ s.g.state 8 = .frozen ∧ s.g.value 8 = fin 25 ∧
      Route [3,3] (Shape.mk' [3,3]).idx2coord (fun i => g.occ i = false) (fun i => 1 / v i) 0 8 13 4 ∧
      ∀ U, X.problem.IsSolution U → U 8 ≤ ((13:ℝ) : WithTop ℝ) := by
  let c : Nat → ℝ := fun i => if i = 1 then 10 else if i = 3 ∨ i = 6 ∨ i = 7 then 8 else 1
  have hc : ∀ i, 0 < c i ∧ c i ≤ 1000 := by
    intro i
    show 0 < (if i = 1 then 10 else if i = 3 ∨ i = 6 ∨ i = 7 then 8 else (1:ℝ)) ∧ (if i = 1 then 10 else if i = 3 ∨ i = 6 ∨ i = 7 then 8 else (1:ℝ)) ≤ 1000
    split
    · norm_num
    · split <;> norm_num
  have c1 : c 1 = 10 := rfl
  have c2 : c 2 = 1 := by simp [c]
  have c3 : c 3 = 8 := by simp [c]
  have c5 : c 5 = 1 := by simp [c]
  have c6 : c 6 = 8 := by simp [c]
  have c7 : c 7 = 8 := by simp [c]
  have c8 : c 8 = 1 := by simp [c]
  have hs5 : (2236/1000 : ℝ) ≤ Real.sqrt 5 := Real.le_sqrt_of_sq_le (by norm_num)
  let cf : (Nat → XR) → Cfg XR := fun f => ⟨false, .time, f, 8⟩
  have cfg8 : ∀ f, (cf f).goal = 8 := fun _ => rfl
  have cfgt : ∀ f, (cf f).heur = .time := fun _ => rfl
  have cfgd : ∀ f, (cf f).hdist = f := fun _ => rfl
  have cfh : ∀ f : Nat → XR, ∀ g i, heurOf (cf f) g i = Arith.div (f i) (g.vel i) := fun _ _ _ => rfl
  obtain ⟨n, s, h1, h2, h3, h4⟩ := StarFar.around (c := c) hc (cfg8
      (getPrecomputedDistance (Shape.mk' [3,3]) (precomputeDistances (Shape.mk' [3,3]) (fun _ => fin 0)) ((Shape.mk' [3,3]).idx2coord 8)))
    (K := fun i => StarWrong.H i * c i)
    (fun i hi h4 => by
      rw [cfh, StarWrong.tab_eq hi, (StarFar.X hc).speed i (by simpa using hi) (StarFar.occ hc h4)]
      have hci := (hc i).1
      show XR.div (XR.fin _) (XR.fin _) = _
      have : (1 / c i : ℝ) ≠ 0 := by positivity
      unfold XR.div
      dsimp only
      rw [if_neg this]
      congr 1
      field_simp)
    (by rw [StarWrong.H1, StarWrong.H3, c1, c3]; linarith)
    (by rw [StarWrong.H1, StarWrong.H6, c1, c3, c6]; linarith)
    (by rw [StarWrong.H1, StarWrong.H7, c1, c3, c6, c7]; linarith)
    (by rw [StarWrong.H1, StarWrong.H8, c1, c3, c6, c7, c8]; linarith)
  have hr := StarFar.route hc
  have e13 : c 1 + c 2 + c 5 + c 8 = 13 := by rw [c1, c2, c5, c8]; norm_num
  have e25 : c 3 + c 6 + c 7 + c 8 = 25 := by rw [c3, c6, c7, c8]; norm_num
  rw [e13] at hr
  rw [e25] at h4
  exact ⟨StarFar.ring c, cf _, fun i => 1 / c i, StarFar.X hc, StarFar.fresh, cfgt _, cfg8 _, cfgd _, n, s, h1, h2, h3, h4, hr,
    fun U hU => exact_le_route (StarFar.X hc) hU hr⟩

end FMV
