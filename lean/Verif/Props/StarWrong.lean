import Verif.Props.StarGoal
import Mathlib.Tactic.NormNum.RealSqrt
/-
C62: on an empty 3 x 3 map with unit cells and speed, FMM* leaves a larger time at the goal than FMM.
-/
set_option linter.unusedSectionVars false
set_option linter.unusedVariables false
namespace FMV
open Spec Shape XR FMM

theorem upd_left {c t : ℝ} (hc : 0 < c) {Ti y : WithTop ℝ} (ht : (t : WithTop ℝ) < Ti) (hy : y = ⊤ ∨ Ti ≤ y) :
    upd c Ti [(t : WithTop ℝ), y] = ((t + c : ℝ) : WithTop ℝ) := by
  have hu : usableT Ti [(t : WithTop ℝ), y] = [t] := by
    rw [usableT_cons_coe, if_pos ht]
    cases y with
    | top => rfl
    | coe y => rw [usableT_cons_coe, if_neg (not_lt.2 (hy.resolve_left (by simp)))]; rfl
  unfold upd
  rw [hu]
  unfold eikR
  simp [loopR, ndR_one hc.le]

theorem upd_right {c t : ℝ} (hc : 0 < c) {Ti y : WithTop ℝ} (ht : (t : WithTop ℝ) < Ti) (hy : y = ⊤ ∨ Ti ≤ y) :
    upd c Ti [y, (t : WithTop ℝ)] = ((t + c : ℝ) : WithTop ℝ) := by
  have hu : usableT Ti [y, (t : WithTop ℝ)] = [t] := by
    cases y with
    | top => rw [usableT_cons_top, usableT_cons_coe, if_pos ht]; rfl
    | coe y =>
      rw [usableT_cons_coe, if_neg (not_lt.2 (hy.resolve_left (by simp))), usableT_cons_coe, if_pos ht]; rfl
  unfold upd
  rw [hu]
  unfold eikR
  simp [loopR, ndR_one hc.le]

theorem upd_both {c a b : ℝ} (hc : 0 < c) {Ti : WithTop ℝ} (ha : (a : WithTop ℝ) < Ti) (hb : (b : WithTop ℝ) < Ti)
    (h1 : b + eps ≤ a + c) (h2 : a + eps ≤ b + c) :
    ∃ u : ℝ, upd c Ti [(a : WithTop ℝ), (b : WithTop ℝ)] = (u : WithTop ℝ) ∧ a ≤ u ∧ b ≤ u ∧ (u - a)^2 + (u - b)^2 = c^2 := by
  have hu : usableT Ti [(a : WithTop ℝ), (b : WithTop ℝ)] = [a, b] := by
    rw [usableT_cons_coe, if_pos ha, usableT_cons_coe, if_pos hb]; rfl
  unfold upd
  rw [hu]
  obtain ⟨u, used, unused, e1, hp, hne, hs, hle, hun, _⟩ := eikR_spec hc (show [a, b] ≠ [] by simp)
  refine ⟨u, e1, ?_⟩
  have hlen := hp.length_eq
  simp only [List.length_cons, List.length_nil, List.length_append] at hlen
  cases unused with
  | nil =>
    rw [List.append_nil] at hp
    refine ⟨hle a (hp.subset (by simp)), hle b (hp.subset (by simp)), ?_⟩
    rw [← hs]
    unfold sqs
    rw [← (hp.map (fun t => (u - t)^2)).sum_eq]
    simp
  | cons y unused =>
    exfalso
    match used, hne, hlen with
    | [x], _, hlen =>
      simp only [List.length_cons, List.length_nil] at hlen
      have : unused = [] := List.length_eq_zero_iff.1 (by omega)
      subst this
      have hux : u = x + c := by
        have e : (u - x)^2 = c^2 := by rw [← hs]; simp
        have h0 : 0 ≤ u - x := by have := hle x (by simp); linarith
        have := (pow_left_inj₀ h0 hc.le (by norm_num : (2:Nat) ≠ 0)).1 e
        linarith
      have hy := hun y (by simp)
      have hpp : List.Perm [a, b] [x, y] := hp
      have hx := hpp.subset (show a ∈ [a, b] by simp)
      have hb' := hpp.subset (show b ∈ [a, b] by simp)
      have hya := hpp.symm.subset (show y ∈ [x, y] by simp)
      have hxa := hpp.symm.subset (show x ∈ [x, y] by simp)
      have hsum := hpp.sum_eq
      simp at hx hb' hya hxa hsum
      rcases hxa with rfl | rfl <;> linarith
    | x :: x' :: l, _, hlen => simp only [List.length_cons] at hlen; omega

theorem upd_first {c t y : ℝ} (hc : 0 < c) {Ti : WithTop ℝ} (ht : (t : WithTop ℝ) < Ti) (hy : (y : WithTop ℝ) < Ti) (h : t + c < y) :
    upd c Ti [(y : WithTop ℝ), (t : WithTop ℝ)] = ((t + c : ℝ) : WithTop ℝ) := by
  have hu : usableT Ti [(y : WithTop ℝ), (t : WithTop ℝ)] = [y, t] := by
    rw [usableT_cons_coe, if_pos hy, usableT_cons_coe, if_pos ht]; rfl
  have hle : upd c Ti [(y : WithTop ℝ), (t : WithTop ℝ)] ≤ (t : WithTop ℝ) + (c : WithTop ℝ) := upd_le_add hc (by simp) ht
  unfold upd at hle ⊢
  rw [hu] at hle ⊢
  obtain ⟨u, used, unused, e1, hp, hne, hs, hle', hun, _⟩ := eikR_spec hc (show [y, t] ≠ [] by simp)
  rw [e1] at hle ⊢
  have hutc : u ≤ t + c := by rw [← WithTop.coe_add] at hle; exact WithTop.coe_le_coe.1 hle
  have hyu : y ∉ used := fun hm => by have := hle' y hm; linarith
  have hall : ∀ x ∈ used, x = t := by
    intro x hx
    have := hp.symm.subset (List.mem_append_left _ hx)
    simp at this
    rcases this with rfl | h
    · exact absurd hx hyu
    · exact h
  have hlen := hp.length_eq
  simp only [List.length_cons, List.length_nil, List.length_append] at hlen
  match used, hne, hlen, hall with
  | [x], _, _, hall =>
    have : x = t := hall x (by simp)
    subst this
    have e : (u - x)^2 = c^2 := by rw [← hs]; simp
    have h0 : 0 ≤ u - x := by have := hle' x (by simp); linarith
    have := (pow_left_inj₀ h0 hc.le (by norm_num : (2:Nat) ≠ 0)).1 e
    have hu : u = x + c := by linarith
    rw [hu]
  | x :: x' :: l, _, hlen, _ =>
    exfalso
    simp only [List.length_cons] at hlen
    have hl : unused = [] := List.length_eq_zero_iff.1 (by omega)
    subst hl
    have := hp.subset (show y ∈ [y, t] by simp)
    rw [List.append_nil] at this
    exact hyu this

namespace StarWrong

/-- the empty 3 x 3 map -/
noncomputable def g0 : Grid XR := Grid.create [3,3] (fin 1) (0,0)

/-- FMM* with the DISTANCE heuristic, the table `f` and the goal in the opposite corner -/
def cf (f : Nat → XR) : Cfg XR := ⟨false, .distance, f, 8⟩

theorem heurOf_cf (f : Nat → XR) (i : Nat) : heurOf (cf f) g0 i = f i := rfl
theorem cf_hdist (f : Nat → XR) : (cf f).hdist = f := rfl
theorem cf_heur (f : Nat → XR) : (cf f).heur = .distance := rfl
theorem cf_goal (f : Nat → XR) : (cf f).goal = 8 := rfl

theorem X : XInput [3,3] g0 1 (fun _ => 1) [0] :=
  ⟨⟨by decide, by decide, by decide⟩, by decide, rfl, by decide, one_pos, rfl, fun _ _ _ => rfl⟩

theorem fresh : Fresh g0 := ⟨fun _ => rfl, fun _ => rfl, fun _ => rfl⟩

theorem occ0 (i : Nat) : g0.occ i = false := by
  show XR.lt (XR.fin 1) (XR.fin _) = false
  simp [XR.lt]; unfold XR.eps; norm_num

/-- distance to the goal -/
noncomputable def H (i : Nat) : ℝ := euclid ((Shape.mk' [3,3]).idx2coord i) ((Shape.mk' [3,3]).idx2coord 8)

theorem tab_eq {i : Nat} (hi : i < 9) :
    getPrecomputedDistance (Shape.mk' [3,3]) (precomputeDistances (Shape.mk' [3,3]) (fun _ => fin 0)) ((Shape.mk' [3,3]).idx2coord 8) i = fin (H i) :=
  C41_heuristic_is_euclidean (dims := [3,3]) ⟨by decide, by decide, by decide⟩ (by decide) (by simpa using hi) (by decide) _

theorem H1 : H 1 = Real.sqrt 5 := by
  show Real.sqrt _ = _; congr 1; show (List.sum [((1:Nat) - (2:Nat) : ℝ)^2, ((0:Nat) - (2:Nat) : ℝ)^2]) = 5; norm_num
theorem H2 : H 2 = 2 := by
  show Real.sqrt (List.sum [((2:Nat) - (2:Nat) : ℝ)^2, ((0:Nat) - (2:Nat) : ℝ)^2]) = 2
  rw [show (List.sum [((2:Nat) - (2:Nat) : ℝ)^2, ((0:Nat) - (2:Nat) : ℝ)^2]) = 2^2 by norm_num, Real.sqrt_sq (by norm_num)]
theorem H3 : H 3 = Real.sqrt 5 := by
  show Real.sqrt _ = _; congr 1; show (List.sum [((0:Nat) - (2:Nat) : ℝ)^2, ((1:Nat) - (2:Nat) : ℝ)^2]) = 5; norm_num
theorem H4 : H 4 = Real.sqrt 2 := by
  show Real.sqrt _ = _; congr 1; show (List.sum [((1:Nat) - (2:Nat) : ℝ)^2, ((1:Nat) - (2:Nat) : ℝ)^2]) = 2; norm_num
theorem H5 : H 5 = 1 := by
  show Real.sqrt (List.sum [((2:Nat) - (2:Nat) : ℝ)^2, ((1:Nat) - (2:Nat) : ℝ)^2]) = 1; norm_num
theorem H6 : H 6 = 2 := by
  show Real.sqrt (List.sum [((0:Nat) - (2:Nat) : ℝ)^2, ((2:Nat) - (2:Nat) : ℝ)^2]) = 2
  rw [show (List.sum [((0:Nat) - (2:Nat) : ℝ)^2, ((2:Nat) - (2:Nat) : ℝ)^2]) = 2^2 by norm_num, Real.sqrt_sq (by norm_num)]
theorem H7 : H 7 = 1 := by
  show Real.sqrt (List.sum [((1:Nat) - (2:Nat) : ℝ)^2, ((2:Nat) - (2:Nat) : ℝ)^2]) = 1; norm_num
theorem H8 : H 8 = 0 := by
  show Real.sqrt (List.sum [((2:Nat) - (2:Nat) : ℝ)^2, ((2:Nat) - (2:Nat) : ℝ)^2]) = 0; norm_num

/-- times, states and queue of `s` -/
structure At (L : List (WithTop ℝ)) (S : List FMState) (hp : List Nat) (s : St XR) : Prop where
  map : SameMap g0 s.g
  good : GoodG s.g
  val : tv s.g = fun k => L.getD k ⊤
  st : ∀ k, s.g.state k = S.getD k .opn
  heap : s.heap = hp

theorem getD_set {α : Type} (l : List α) (j k : Nat) (x d : α) (h : j < l.length) : (l.set j x).getD k d = if k = j then x else l.getD k d := by
  simp only [List.getD_eq_getElem?_getD, List.getElem?_set]
  by_cases hk : j = k
  · subst hk; simp [h]
  · rw [if_neg hk, if_neg (Ne.symm hk)]

variable {f : Nat → XR} {L : List (WithTop ℝ)} {S : List FMState} {hp : List Nat} {s : St XR}

theorem At.skip (A : At L S hp s) (j : Nat) (hj : S.getD j .opn = .frozen) : At L S hp (relax (cf f) eikS s j) := by
  rw [relax_skip (Or.inl ((A.st j).trans hj))]; exact A

theorem At.keep (A : At L S hp s) (j : Nat) (hj9 : j < 9) (hj : S.getD j .opn = .narrow)
    (hu : ¬ (upd (1 / 1) (L.getD j ⊤) (mins (Shape.mk' [3,3]) (fun k => L.getD k ⊤) j) + (eps : WithTop ℝ) < L.getD j ⊤)) : At L S hp (relax (cf f) eikS s j) := by
  have ho : s.g.occ j = false := (SameMap.occ_eq A.map j).trans (occ0 j)
  have he := X.eik_eq A.map A.good (show j < [3,3].prod by simpa using hj9) (occ0 j)
  have hsj : s.g.state j = .narrow := (A.st j).trans hj
  have htv : s.g.value j = ofT (tv s.g j) := by unfold tv; rw [(A.good j).ofT_toT]
  obtain ⟨a1, a2, _⟩ := tv_relax_pos X (cfg := cf f) A.map A.good (show j < [3,3].prod by simpa using hj9)
  rcases relax_cases (cf f) eikS s j with ⟨hh, e⟩ | ⟨_, hn, hb, e⟩ | ⟨_, hn, hb, e⟩ | ⟨_, hn, e⟩
  · rw [e]; exact A
  · rw [he, htv, better_ofT, A.val] at hb; exact absurd hb hu
  · refine ⟨a1, a2, ?_, fun k => ?_, ?_⟩
    · rw [← A.val]; funext k; rw [e]; unfold tv; dsimp only; rw [applyHeur_value]; rfl
    · rw [relax_state, if_neg (by rintro ⟨_, h1, _⟩; rw [hsj] at h1; cases h1)]; exact A.st k
    · rw [e]; exact A.heap
  · rw [hsj] at hn; cases hn

theorem At.new (A : At L S hp s) (j : Nat) (hj9 : j < 9) (hL : L.length = 9) (hS : S.length = 9) (hj : S.getD j .opn = .opn) {u : ℝ}
    (hu : upd (1 / 1) (L.getD j ⊤) (mins (Shape.mk' [3,3]) (fun k => L.getD k ⊤) j) = (u : WithTop ℝ)) :
    At (L.set j (u : WithTop ℝ)) (S.set j .narrow) (j :: hp) (relax (cf f) eikS s j) := by
  have ho : s.g.occ j = false := (SameMap.occ_eq A.map j).trans (occ0 j)
  have he := X.eik_eq A.map A.good (show j < [3,3].prod by simpa using hj9) (occ0 j)
  have hsj : s.g.state j = .opn := (A.st j).trans hj
  obtain ⟨a1, a2, _⟩ := tv_relax_pos X (cfg := cf f) A.map A.good (show j < [3,3].prod by simpa using hj9)
  rcases relax_cases (cf f) eikS s j with ⟨hh, e⟩ | ⟨_, hn, hb, e⟩ | ⟨_, hn, hb, e⟩ | ⟨_, hn, e⟩
  · rcases hh with hh | hh
    · rw [hsj] at hh; cases hh
    · rw [ho] at hh; cases hh
  · rw [hsj] at hn; cases hn
  · rw [hsj] at hn; cases hn
  · refine ⟨a1, a2, ?_, fun k => ?_, ?_⟩
    · funext k
      rw [getD_set _ _ _ _ _ (by omega), e]
      unfold tv; dsimp only; rw [Grid.value_setValue]
      by_cases hk : k = j
      · rw [if_pos hk, if_pos hk, he, toT_ofT, A.val]; exact hu
      · rw [if_neg hk, if_neg hk, Grid.value_setState, applyHeur_value]
        exact congrFun A.val k
    · rw [relax_state, getD_set _ _ _ _ _ (by omega)]
      by_cases hk : k = j
      · rw [if_pos ⟨hk, hsj, ho⟩, if_pos hk]
      · rw [if_neg (fun h => hk h.1), if_neg hk]; exact A.st k
    · rw [e]; show j :: s.heap = _; rw [A.heap]

theorem At.pop (A : At L S hp s) (x : Nat) (hx : x < 9) (hS : S.length = 9) : At L (S.set x .frozen) (hp.erase x) (popped s x) := by
  refine ⟨A.map.trans (popped_sameMap s x), ?_, ?_, fun k => ?_, ?_⟩
  · intro k; simp only [popped, Grid.value_setState]; exact A.good k
  · rw [← A.val]; funext k; unfold tv; simp [popped]
  · rw [getD_set _ _ _ _ _ (by omega), popped]; dsimp only; rw [Grid.state_setState]
    split
    · rfl
    · exact A.st k
  · show s.heap.erase x = _; rw [A.heap]

/-- `x` may be popped -/
theorem At.top (hf : ∀ i < 9, f i = fin (H i)) (A : At L S hp s) (HI : HInv (cf f) g0 [0] s) (hns : s.stop = false) (x : Nat) (hxm : x ∈ hp) (hheap : ∀ y ∈ hp, y < 9)
    (a : ℝ) (ha : L.getD x ⊤ = (a : WithTop ℝ)) (hmin : ∀ y ∈ hp, ∀ b : ℝ, L.getD y ⊤ = (b : WithTop ℝ) → a + H x ≤ b + H y) :
    StepMin (cf f) s (expand (cf f) eikS s x) := by
  have hval : ∀ y b, L.getD y ⊤ = ((b : ℝ) : WithTop ℝ) → (s.g.cells y).value = fin b := by
    intro y b hb
    have h1 := (A.good y).ofT_toT
    have h2 : tv s.g y = (b : WithTop ℝ) := by rw [A.val]; exact hb
    unfold tv at h2; rw [h2] at h1; exact h1.symm
  have hh : ∀ y ∈ hp, (s.g.cells y).hValue = fin (H y) := by
    intro y hy
    rw [HI.lab y (HI.hp y (by rw [A.heap]; exact hy))]
    rw [heurOf_cf]; exact hf y (hheap y hy)
  refine ⟨?_, x, ⟨by rw [A.heap]; exact hxm, ?_⟩, rfl⟩
  · rintro (h | h)
    · rw [hns] at h; cases h
    · rw [A.heap] at h; rw [h] at hxm; cases hxm
  · intro y hy
    rw [A.heap] at hy
    unfold Cell.total
    rw [hh y hy, hh x hxm, hval x a ha]
    cases hb : L.getD y ⊤ with
    | top =>
      have : (s.g.cells y).value = pinf := by
        have h1 := (A.good y).ofT_toT
        have h2 : tv s.g y = ⊤ := by rw [A.val]; exact hb
        unfold tv at h2; rw [h2] at h1; exact h1.symm
      rw [this]; simp [Arith.add, XR.add, Arith.lt, XR.lt]
    | coe b =>
      rw [hval y b hb]
      have := hmin y hy b hb
      simp only [Arith.add, XR.add, Arith.lt, XR.lt, decide_eq_false_iff_not, not_lt]
      exact this

theorem At.stop (A : At L S hp s) (b : Bool) : At L S hp { s with stop := b } := ⟨A.map, A.good, A.val, A.st, A.heap⟩

/-- an iteration that pops `x` -/
theorem At.step (hf : ∀ i < 9, f i = fin (H i)) (A : At L S hp s) (HI : HInv (cf f) g0 [0] s) (hns : s.stop = false) (x : Nat) (hx : x < 9) (hS : S.length = 9) (hxm : x ∈ hp)
    (hheap : ∀ y ∈ hp, y < 9)
    (a : ℝ) (ha : L.getD x ⊤ = (a : WithTop ℝ)) (hmin : ∀ y ∈ hp, ∀ b : ℝ, L.getD y ⊤ = (b : WithTop ℝ) → a + H x ≤ b + H y) {L' S' hp'}
    (hfold : ∀ s', At L (S.set x .frozen) (hp.erase x) s' → At L' S' hp' (((Shape.mk' [3,3]).nbrs x).foldl (relax (cf f) eikS) s')) :
    ∃ s', StepMin (cf f) s s' ∧ At L' S' hp' s' ∧ HInv (cf f) g0 [0] s' ∧ s'.stop = decide (x = 8) := by
  have hstep := A.top hf HI hns x hxm hheap a ha hmin
  refine ⟨_, hstep, ?_, HI.step hstep.any, ?_⟩
  · have hsh : s.g.shape = Shape.mk' [3,3] := A.map.shape
    have B := hfold _ (A.pop x hx hS)
    rw [expand_eq, hsh]
    exact B.stop _
  · rw [expand_eq]
    dsimp only
    rw [hns]
    by_cases h : x = 8
    · rw [if_pos (show x = (cf f).goal from h)]; simp [h]
    · rw [if_neg (show ¬ x = (cf f).goal from h)]; simp [h]

theorem expand_x_value (f : Nat → XR) (s : St XR) (x : Nat) : (expand (cf f) eikS s x).g.value x = s.g.value x := by
  refine (expand_inv (I := fun t : St XR => t.g.value x = s.g.value x ∧ t.g.state x = .frozen) (cf f) eikS s x (fun _ _ h => h) ?_ ?_).1
  · exact ⟨by simp [popped], by simp [popped, Grid.state_setState]⟩
  · intro t j _ ht
    have e : (relax (cf f) eikS t j).g.cells x = t.g.cells x := relax_cells_protected (Or.inl ht.2)
    unfold Grid.value Grid.state at *
    rw [e]; exact ht

theorem lo_of {u a b a' b' q : ℝ} (ha : a ≤ u) (hb : b ≤ u) (haa : a' ≤ a) (hbb : b' ≤ b) (h : (u - a)^2 + (u - b)^2 = (1/1)^2)
    (hq : (q - a')^2 + (q - b')^2 < 1) : q ≤ u := by
  by_contra hc; push Not at hc
  have h1 : (u - a)^2 ≤ (q - a')^2 := pow_le_pow_left₀ (by linarith) (by linarith) 2
  have h2 : (u - b)^2 ≤ (q - b')^2 := pow_le_pow_left₀ (by linarith) (by linarith) 2
  norm_num at h
  linarith

theorem hi_of {u a b a' b' q : ℝ} (haa : a ≤ a') (hbb : b ≤ b') (ha : a' ≤ q) (hb : b' ≤ q) (h : (u - a)^2 + (u - b)^2 = (1/1)^2)
    (hq : 1 < (q - a')^2 + (q - b')^2) : u ≤ q := by
  by_contra hc; push Not at hc
  have h1 : (q - a')^2 ≤ (u - a)^2 := pow_le_pow_left₀ (by linarith) (by linarith) 2
  have h2 : (q - b')^2 ≤ (u - b)^2 := pow_le_pow_left₀ (by linarith) (by linarith) 2
  norm_num at h
  linarith

/-- The run of FMM*: the goal is frozen with a time above 3.32. -/
theorem star (hf : ∀ i < 9, f i = fin (H i)) : ∃ (n : Nat) (s : St XR) (d : ℝ), Steps (StepMin (cf f)) n (init (cf f) g0 [] [0]) s ∧ Done s ∧ s.g.state 8 = .frozen ∧ s.g.value 8 = fin d ∧
    3328/1000 < d := by
  have hepsl : eps ≤ 1/1000 := by unfold eps; norm_num
  have hepsp := eps_pos
  have hs5 : (2236/1000 : ℝ) ≤ Real.sqrt 5 ∧ Real.sqrt 5 ≤ 22361/10000 :=
    ⟨Real.le_sqrt_of_sq_le (by norm_num), Real.sqrt_le_iff.2 ⟨by norm_num, by norm_num⟩⟩
  have hs2 : Real.sqrt 2 ≤ 14143/10000 := Real.sqrt_le_iff.2 ⟨by norm_num, by norm_num⟩
  have A0 : At [((0:ℝ) : WithTop ℝ), ⊤, ⊤, ⊤, ⊤, ⊤, ⊤, ⊤, ⊤] [.opn, .opn, .opn, .opn, .opn, .opn, .opn, .opn, .opn] [0] (init (cf f) g0 [] [0]) := by
    refine ⟨init_sameMap _ _ _ _, ?_, ?_, ?_, by rw [init_heap]; rfl⟩
    · intro k; rw [init_value]; split
      · exact Or.inr ⟨0, le_refl _, rfl⟩
      · exact Or.inl rfl
    · funext k; unfold tv; rw [init_value]
      match k with
      | 0 => rfl
      | 1 => rfl
      | 2 => rfl
      | 3 => rfl
      | 4 => rfl
      | 5 => rfl
      | 6 => rfl
      | 7 => rfl
      | 8 => rfl
      | k + 9 => simp; rfl
    · intro k; rw [init_state]
      match k with
      | 0 => rfl
      | 1 => rfl
      | 2 => rfl
      | 3 => rfl
      | 4 => rfl
      | 5 => rfl
      | 6 => rfl
      | 7 => rfl
      | 8 => rfl
      | k + 9 => simp; rfl
  -- the times that occur
  obtain ⟨a, ea, ha1, _, ha⟩ := upd_both (c := 1/1) (a := 1) (b := 1) (Ti := ⊤) (by norm_num) (WithTop.coe_lt_top _) (WithTop.coe_lt_top _) (by linarith) (by linarith)
  have ha_lo : 17071/10000 ≤ a := lo_of ha1 ha1 (le_refl (1:ℝ)) (le_refl (1:ℝ)) ha (by norm_num)
  have ha_hi : a ≤ 17072/10000 := hi_of (le_refl (1:ℝ)) (le_refl (1:ℝ)) (by norm_num) (by norm_num) ha (by norm_num)
  obtain ⟨b, eb, hb1, hb2, hb⟩ := upd_both (c := 1/1) (a := a) (b := 2) (Ti := ⊤) (by norm_num) (WithTop.coe_lt_top _) (WithTop.coe_lt_top _) (by linarith) (by linarith)
  have hb_lo : 25452/10000 ≤ b := lo_of hb1 hb2 ha_lo (le_refl 2) hb (by norm_num)
  have hb_hi : b ≤ 25454/10000 := hi_of ha_hi (le_refl 2) (by norm_num) (by norm_num) hb (by norm_num)
  obtain ⟨d, ed, hd1, hd2, hd⟩ := upd_both (c := 1/1) (a := a + 1) (b := b) (Ti := ⊤) (by norm_num) (WithTop.coe_lt_top _) (WithTop.coe_lt_top _) (by linarith) (by linarith)
  have hd_lo : 3328/1000 < d := lt_of_lt_of_le (by norm_num) (lo_of (q := 33283/10000) hd1 hd2 (show 27071/10000 ≤ a + 1 by linarith) hb_lo hd (by norm_num))
  have hd_hi : d ≤ 3330/1000 := hi_of (show a + 1 ≤ 27072/10000 by linarith) hb_hi (by norm_num) (by norm_num) hd (by norm_num)
  have c0 : ∀ x : ℝ, (x : WithTop ℝ) < ⊤ := fun x => WithTop.coe_lt_top x
  obtain ⟨s1, t1, A1, I1, p1⟩ := A0.step hf (HInv.start (cf f) fresh [0]) (init_stop _ _ _ _) 0 (by norm_num) rfl (by simp) (by decide) 0 rfl
    (by intro y hy b hb; simp at hy; subst hy; rw [show b = 0 from (WithTop.coe_injective hb).symm])
    (L' := [((0:ℝ) : WithTop ℝ), ((1:ℝ) : WithTop ℝ), ⊤, ((1:ℝ) : WithTop ℝ), ⊤, ⊤, ⊤, ⊤, ⊤])
    (S' := [.frozen, .narrow, .opn, .narrow, .opn, .opn, .opn, .opn, .opn]) (hp' := [3, 1])
    (by
      intro s' B
      have B1 := B.new (f := f) 1 (by norm_num) rfl rfl rfl (u := 1) (by
        show upd (1/1) ⊤ [min ((0:ℝ) : WithTop ℝ) (min ⊤ ⊤), min ⊤ ⊤] = _
        rw [min_top_right, min_top_right, upd_left (by norm_num) (c0 0) (Or.inl rfl)]; norm_num)
      have B2 := B1.new (f := f) 3 (by norm_num) rfl rfl rfl (u := 1) (by
        show upd (1/1) ⊤ [min ⊤ ⊤, min ((0:ℝ) : WithTop ℝ) (min ⊤ ⊤)] = _
        rw [min_top_right, min_top_right, upd_right (by norm_num) (c0 0) (Or.inl rfl)]; norm_num)
      exact B2)
  obtain ⟨s2, t2, A2, I2, p2⟩ := A1.step hf I1 p1 1 (by norm_num) rfl (by simp) (by decide) 1 rfl
    (by
      intro y hy q hq; simp at hy
      rcases hy with rfl | rfl <;> rw [show q = 1 from (WithTop.coe_injective hq).symm]
      rw [H1, H3])
    (L' := [((0:ℝ) : WithTop ℝ), ((1:ℝ) : WithTop ℝ), ((2:ℝ) : WithTop ℝ), ((1:ℝ) : WithTop ℝ), (a : WithTop ℝ), ⊤, ⊤, ⊤, ⊤])
    (S' := [.frozen, .frozen, .narrow, .narrow, .narrow, .opn, .opn, .opn, .opn]) (hp' := [4, 2, 3])
    (by
      intro s' B
      have B1 := B.skip (f := f) 0 rfl
      have B2 := B1.new (f := f) 2 (by norm_num) rfl rfl rfl (u := 2) (by
        show upd (1/1) ⊤ [min ((1:ℝ) : WithTop ℝ) ⊤, min ⊤ ⊤] = _
        rw [min_top_right, min_top_right, upd_left (by norm_num) (c0 1) (Or.inl rfl)]; norm_num)
      have B3 := B2.new (f := f) 4 (by norm_num) rfl rfl rfl (u := a) (by
        show upd (1/1) ⊤ [min ((1:ℝ) : WithTop ℝ) (min ⊤ ⊤), min ((1:ℝ) : WithTop ℝ) (min ⊤ ⊤)] = _
        rw [min_top_right, min_top_right]; exact ea)
      exact B3)
  obtain ⟨s3, t3, A3, I3, p3⟩ := A2.step hf I2 p2 4 (by norm_num) rfl (by simp) (by decide) a rfl
    (by
      intro y hy q hq; simp at hy
      rcases hy with rfl | rfl | rfl
      · rw [show q = a from (WithTop.coe_injective hq).symm]
      · rw [show q = 2 from (WithTop.coe_injective hq).symm, H4, H2]; linarith
      · rw [show q = 1 from (WithTop.coe_injective hq).symm, H4, H3]; linarith [hs5.1])
    (L' := [((0:ℝ) : WithTop ℝ), ((1:ℝ) : WithTop ℝ), ((2:ℝ) : WithTop ℝ), ((1:ℝ) : WithTop ℝ), (a : WithTop ℝ), (b : WithTop ℝ), ⊤, ((a + 1 : ℝ) : WithTop ℝ), ⊤])
    (S' := [.frozen, .frozen, .narrow, .narrow, .frozen, .narrow, .opn, .narrow, .opn]) (hp' := [7, 5, 2, 3])
    (by
      intro s' B
      have B1 := B.keep (f := f) 3 (by norm_num) rfl (by
        show ¬ (upd (1/1) ((1:ℝ) : WithTop ℝ) [min (a : WithTop ℝ) ⊤, min ((0:ℝ) : WithTop ℝ) (min ⊤ ⊤)] + (eps : WithTop ℝ) < ((1:ℝ) : WithTop ℝ))
        rw [min_top_right, min_top_right, min_top_right,
          upd_right (by norm_num) (by exact_mod_cast one_pos) (Or.inr (by exact_mod_cast (by linarith : (1:ℝ) ≤ a))), ← WithTop.coe_add, WithTop.coe_lt_coe]
        linarith)
      have B2 := B1.new (f := f) 5 (by norm_num) rfl rfl rfl (u := b) (by
        show upd (1/1) ⊤ [min (a : WithTop ℝ) ⊤, min ((2:ℝ) : WithTop ℝ) (min ⊤ ⊤)] = _
        rw [min_top_right, min_top_right, min_top_right]; exact eb)
      have B3 := B2.skip (f := f) 1 rfl
      have B4 := B3.new (f := f) 7 (by norm_num) rfl rfl rfl (u := a + 1) (by
        show upd (1/1) ⊤ [min ⊤ (min ⊤ ⊤), min (a : WithTop ℝ) ⊤] = _
        rw [min_top_right, min_top_right, min_top_right, upd_right (by norm_num) (c0 a) (Or.inl rfl)]; norm_num)
      exact B4)
  obtain ⟨s4, t4, A4, I4, p4⟩ := A3.step hf I3 p3 3 (by norm_num) rfl (by simp) (by decide) 1 rfl
    (by
      intro y hy q hq; simp at hy
      rcases hy with rfl | rfl | rfl | rfl
      · rw [show q = a + 1 from (WithTop.coe_injective hq).symm, H3, H7]; linarith [hs5.2]
      · rw [show q = b from (WithTop.coe_injective hq).symm, H3, H5]; linarith [hs5.2]
      · rw [show q = 2 from (WithTop.coe_injective hq).symm, H3, H2]; linarith [hs5.2]
      · rw [show q = 1 from (WithTop.coe_injective hq).symm])
    (L' := [((0:ℝ) : WithTop ℝ), ((1:ℝ) : WithTop ℝ), ((2:ℝ) : WithTop ℝ), ((1:ℝ) : WithTop ℝ), (a : WithTop ℝ), (b : WithTop ℝ), ((2:ℝ) : WithTop ℝ), ((a + 1 : ℝ) : WithTop ℝ), ⊤])
    (S' := [.frozen, .frozen, .narrow, .frozen, .frozen, .narrow, .narrow, .narrow, .opn]) (hp' := [6, 7, 5, 2])
    (by
      intro s' B
      have B1 := B.skip (f := f) 4 rfl
      have B2 := B1.skip (f := f) 0 rfl
      have B3 := B2.new (f := f) 6 (by norm_num) rfl rfl rfl (u := 2) (by
        show upd (1/1) ⊤ [min ((a + 1 : ℝ) : WithTop ℝ) ⊤, min ((1:ℝ) : WithTop ℝ) ⊤] = _
        rw [min_top_right, min_top_right, upd_first (by norm_num) (c0 1) (c0 _) (by linarith)]; norm_num)
      exact B3)
  obtain ⟨s5, t5, A5, I5, p5⟩ := A4.step hf I4 p4 5 (by norm_num) rfl (by simp) (by decide) b rfl
    (by
      intro y hy q hq; simp at hy
      rcases hy with rfl | rfl | rfl | rfl
      · rw [show q = 2 from (WithTop.coe_injective hq).symm, H5, H6]; linarith
      · rw [show q = a + 1 from (WithTop.coe_injective hq).symm, H5, H7]; linarith
      · rw [show q = b from (WithTop.coe_injective hq).symm]
      · rw [show q = 2 from (WithTop.coe_injective hq).symm, H5, H2]; linarith)
    (L' := [((0:ℝ) : WithTop ℝ), ((1:ℝ) : WithTop ℝ), ((2:ℝ) : WithTop ℝ), ((1:ℝ) : WithTop ℝ), (a : WithTop ℝ), (b : WithTop ℝ), ((2:ℝ) : WithTop ℝ), ((a + 1 : ℝ) : WithTop ℝ),
      (d : WithTop ℝ)])
    (S' := [.frozen, .frozen, .narrow, .frozen, .frozen, .frozen, .narrow, .narrow, .narrow]) (hp' := [8, 6, 7, 2])
    (by
      intro s' B
      have B1 := B.skip (f := f) 4 rfl
      have B2 := B1.keep (f := f) 2 (by norm_num) rfl (by
        show ¬ (upd (1/1) ((2:ℝ) : WithTop ℝ) [min ((1:ℝ) : WithTop ℝ) ⊤, min (b : WithTop ℝ) ⊤] + (eps : WithTop ℝ) < ((2:ℝ) : WithTop ℝ))
        rw [min_top_right, min_top_right,
          upd_left (by norm_num) (by exact_mod_cast one_lt_two) (Or.inr (by exact_mod_cast (by linarith : (2:ℝ) ≤ b))), ← WithTop.coe_add, WithTop.coe_lt_coe]
        linarith)
      have B3 := B2.new (f := f) 8 (by norm_num) rfl rfl rfl (u := d) (by
        show upd (1/1) ⊤ [min ((a + 1 : ℝ) : WithTop ℝ) ⊤, min (b : WithTop ℝ) ⊤] = _
        rw [min_top_right, min_top_right]; exact ed)
      exact B3)
  have hmin : ∀ y ∈ [8, 6, 7, 2], ∀ q : ℝ, [((0:ℝ) : WithTop ℝ), ((1:ℝ) : WithTop ℝ), ((2:ℝ) : WithTop ℝ), ((1:ℝ) : WithTop ℝ), (a : WithTop ℝ), (b : WithTop ℝ),
      ((2:ℝ) : WithTop ℝ), ((a + 1 : ℝ) : WithTop ℝ), (d : WithTop ℝ)].getD y ⊤ = (q : WithTop ℝ) → d + H 8 ≤ q + H y := by
    intro y hy q hq; simp only [List.mem_cons, List.not_mem_nil, or_false] at hy
    rcases hy with rfl | rfl | rfl | rfl
    · rw [show q = d from (WithTop.coe_injective hq).symm]
    · rw [show q = 2 from (WithTop.coe_injective hq).symm, H8, H6]; linarith
    · rw [show q = a + 1 from (WithTop.coe_injective hq).symm, H8, H7]; linarith
    · rw [show q = 2 from (WithTop.coe_injective hq).symm, H8, H2]; linarith
  have t6 := A5.top hf I5 p5 8 (by simp) (by decide) d rfl hmin
  refine ⟨6, _, d, .tail (.tail (.tail (.tail (.tail (.tail (.refl _) t1) t2) t3) t4) t5) t6, Or.inl ?_, expand_x_frozen, ?_, hd_lo⟩
  · rw [expand_eq]; rfl
  · rw [expand_x_value]
    have h1 := (A5.good 8).ofT_toT
    have h2 : tv s5.g 8 = (d : WithTop ℝ) := by rw [A5.val]; rfl
    unfold tv at h2; rw [h2] at h1; exact h1.symm

/-- the exact times are at most these -/
theorem exact_le {U : Nat → WithTop ℝ} (hU : X.problem.IsSolution U) : ∃ r : ℝ, U 8 = (r : WithTop ℝ) ∧ r ≤ 3253/1000 := by
  have E := X.exSol hU
  have key : ∀ i, i < 9 → i ≠ 0 → ∀ (a b q : ℝ), (∃ x y, mins (Shape.mk' [3,3]) U i = [x, y] ∧ x ≤ (a : WithTop ℝ) ∧ y ≤ (b : WithTop ℝ)) →
      1 ≤ (max (q - a) 0)^2 + (max (q - b) 0)^2 → U i ≤ (q : WithTop ℝ) := by
    rintro i hi h0 a b q ⟨x, y, hm, hx, hy⟩ hq
    rcases (E i (by simpa using hi)).2.2 (by simpa using h0) (by simp [occ0]) with ⟨r, hr, hres⟩ | ⟨_, hall⟩
    · rw [hr]
      by_contra hcon
      have hqr : q < r := by
        by_contra hc; exact hcon (WithTop.coe_le_coe.2 (not_lt.1 hc))
      rw [hm] at hres
      simp only [residL_cons, residL_nil, add_zero] at hres
      have h1 := posSq_anti r hx
      have h2 := posSq_anti r hy
      have h3 : residL q [(a : WithTop ℝ), (b : WithTop ℝ)] < residL r [(a : WithTop ℝ), (b : WithTop ℝ)] := by
        apply residL_strict hqr
        have := residL_mono hqr.le [(a : WithTop ℝ), (b : WithTop ℝ)]
        simp only [residL_cons, residL_nil, posSq_coe, add_zero] at this ⊢
        linarith
      simp only [residL_cons, residL_nil, posSq_coe, add_zero] at h3 h1 h2
      norm_num at hres
      linarith
    · have := hall x (by rw [hm]; simp)
      rw [this] at hx
      exact absurd hx (not_le.2 (WithTop.coe_lt_top _))
  have u0 : U 0 = 0 := (E 0 (by simp)).1 (by simp)
  have big : ∀ x : WithTop ℝ, min x ⊤ ≤ x := fun x => min_le_left _ _
  -- bounds of single values, used as (value, bound that does not matter)
  have one : ∀ i, i < 9 → i ≠ 0 → ∀ (a q : ℝ), (∃ x y, mins (Shape.mk' [3,3]) U i = [x, y] ∧ (x ≤ (a : WithTop ℝ) ∨ y ≤ (a : WithTop ℝ))) →
      a + 1 ≤ q → U i ≤ (q : WithTop ℝ) := by
    rintro i hi h0 a q ⟨x, y, hm, hxy⟩ hq
    rcases (E i (by simpa using hi)).2.2 (by simpa using h0) (by simp [occ0]) with ⟨r, hr, hres⟩ | ⟨_, hall⟩
    · rw [hr]
      rw [hm] at hres
      simp only [residL_cons, residL_nil, add_zero] at hres
      have h3 : (max (r - a) 0)^2 ≤ 1 := by
        rcases hxy with h | h
        · have h1 := posSq_anti r h; have h2 := posSq_nonneg r y; rw [posSq_coe] at h1; norm_num at hres; linarith
        · have h1 := posSq_anti r h; have h2 := posSq_nonneg r x; rw [posSq_coe] at h1; norm_num at hres; linarith
      have h4 : max (r - a) 0 ≤ 1 := by
        have := abs_le_of_sq_le_sq' (show (max (r - a) 0)^2 ≤ 1^2 by linarith) one_pos.le
        exact this.2
      have : r - a ≤ 1 := (le_max_left _ _).trans h4
      exact_mod_cast (by linarith : r ≤ q)
    · exfalso
      rcases hxy with h | h
      · rw [hall x (by rw [hm]; simp)] at h; exact absurd h (not_le.2 (WithTop.coe_lt_top _))
      · rw [hall y (by rw [hm]; simp)] at h; exact absurd h (not_le.2 (WithTop.coe_lt_top _))
  have u1 : U 1 ≤ ((1:ℝ) : WithTop ℝ) := one 1 (by norm_num) (by norm_num) 0 1 ⟨_, _, rfl, Or.inl ((min_le_left _ _).trans u0.le)⟩ (by norm_num)
  have u3 : U 3 ≤ ((1:ℝ) : WithTop ℝ) := one 3 (by norm_num) (by norm_num) 0 1 ⟨_, _, rfl, Or.inr ((min_le_left _ _).trans u0.le)⟩ (by norm_num)
  have u2 : U 2 ≤ ((2:ℝ) : WithTop ℝ) := one 2 (by norm_num) (by norm_num) 1 2 ⟨_, _, rfl, Or.inl ((min_le_left _ _).trans u1)⟩ (by norm_num)
  have u6 : U 6 ≤ ((2:ℝ) : WithTop ℝ) := one 6 (by norm_num) (by norm_num) 1 2 ⟨_, _, rfl, Or.inr ((min_le_left _ _).trans u3)⟩ (by norm_num)
  have u4 : U 4 ≤ ((17072/10000:ℝ) : WithTop ℝ) := key 4 (by norm_num) (by norm_num) 1 1 _
    ⟨_, _, rfl, (min_le_left _ _).trans u3, (min_le_left _ _).trans u1⟩ (by norm_num)
  have u5 : U 5 ≤ ((25455/10000:ℝ) : WithTop ℝ) := key 5 (by norm_num) (by norm_num) (17072/10000) 2 _
    ⟨_, _, rfl, (min_le_left _ _).trans u4, (min_le_left _ _).trans u2⟩ (by norm_num)
  have u7 : U 7 ≤ ((25455/10000:ℝ) : WithTop ℝ) := key 7 (by norm_num) (by norm_num) 2 (17072/10000) _
    ⟨_, _, rfl, (min_le_left _ _).trans u6, (min_le_left _ _).trans u4⟩ (by norm_num)
  have u8 : U 8 ≤ ((3253/1000:ℝ) : WithTop ℝ) := key 8 (by norm_num) (by norm_num) (25455/10000) (25455/10000) _
    ⟨_, _, rfl, (min_le_left _ _).trans u7, (min_le_left _ _).trans u5⟩ (by norm_num)
  cases h8 : U 8 with
  | top => rw [h8] at u8; exact absurd u8 (not_le.2 (WithTop.coe_lt_top _))
  | coe r => rw [h8] at u8; exact ⟨r, rfl, WithTop.coe_le_coe.1 u8⟩

end StarWrong

/-- **C62** as stated fails: on the empty 3 x 3 map with unit cells and unit speed, from one corner to the opposite one, FMM* with the DISTANCE heuristic (there
is no difference to TIME at unit speed) and an ordered queue stops with a time above 3.328 at the goal, while the exact time, which FMM reproduces
(`C16_FMM_frozen`), is at most 3.253. -/
theorem C62_star_not_exact : ∃ (g : Grid XR) (cfg : Cfg XR) (X : XInput [3,3] g 1 (fun _ => 1) [0]), Fresh g ∧ cfg.heur = .distance ∧ cfg.goal = 8 ∧
    cfg.hdist = getPrecomputedDistance (Shape.mk' [3,3]) (precomputeDistances (Shape.mk' [3,3]) (fun _ => fin 0)) ((Shape.mk' [3,3]).idx2coord 8) ∧
    ∃ (n : Nat) (s : St XR) (d : ℝ), Steps (StepMin cfg) n (init cfg g [] [0]) s ∧ Done s ∧ s.g.state 8 = .frozen ∧ s.g.value 8 = fin d ∧
      3328/1000 < d ∧ ∀ U, X.problem.IsSolution U → ∃ r : ℝ, U 8 = (r : WithTop ℝ) ∧ r ≤ 3253/1000 := by
  refine ⟨StarWrong.g0, StarWrong.cf _, StarWrong.X, StarWrong.fresh, StarWrong.cf_heur _, StarWrong.cf_goal _, StarWrong.cf_hdist _, ?_⟩
  obtain ⟨n, s, d, h1, h2, h3, h4, h5⟩ := StarWrong.star (fun i hi => StarWrong.tab_eq hi)
  exact ⟨n, s, d, h1, h2, h3, h4, h5, fun U hU => StarWrong.exact_le hU⟩

/-- non-vacuity of `C62_goal_time_partial` and `C62_distance_partial`: the run above meets their hypotheses, and a route of 4 moves that takes 4 leads to
the goal -/
example : ∃ (g : Grid XR) (cfg : Cfg XR) (n : Nat) (s : St XR), XInput [3,3] g 1 (fun _ => 1) [0] ∧ Fresh g ∧ cfg.heur = .distance ∧
    cfg.hdist = getPrecomputedDistance (Shape.mk' [3,3]) (precomputeDistances (Shape.mk' [3,3]) (fun _ => fin 0)) ((Shape.mk' [3,3]).idx2coord 8) ∧
    (∀ i, i < [3,3].prod → g.occ i = false → 1 ≤ (1:ℝ) / 1) ∧
    Steps (StepMin cfg) n (init cfg g [] [0]) s ∧ s.g.state 8 = .frozen ∧
    Route [3,3] (Shape.mk' [3,3]).idx2coord (fun i => g.occ i = false) (fun _ => 1 / 1) 0 8 (0 + 1 / 1 + 1 / 1 + 1 / 1 + 1 / 1) 4 := by
  obtain ⟨n, s, d, h1, h2, h3, h4, h5⟩ := StarWrong.star (fun i hi => StarWrong.tab_eq hi)
  refine ⟨StarWrong.g0, StarWrong.cf _, n, s, StarWrong.X, StarWrong.fresh, StarWrong.cf_heur _, StarWrong.cf_hdist _, fun _ _ _ => by norm_num, h1, h3, ?_⟩
  have adj : ∀ i j, i < 9 → j ∈ (Shape.mk' [3,3]).nbrs i → AxisAdjacent ((Shape.mk' [3,3]).idx2coord i) ((Shape.mk' [3,3]).idx2coord j) :=
    fun i j hi hj => ((axisAdjacent_iff (dims := [3,3]) StarWrong.X.fits (by simpa using hi)).1 hj).2
  exact .move (.move (.move (.move .start (j := 1) (by decide) (StarWrong.occ0 _) (adj 0 1 (by decide) (by decide)))
    (j := 2) (by decide) (StarWrong.occ0 _) (adj 1 2 (by decide) (by decide)))
    (j := 5) (by decide) (StarWrong.occ0 _) (adj 2 5 (by decide) (by decide)))
    (j := 8) (by decide) (StarWrong.occ0 _) (adj 5 8 (by decide) (by decide))

end FMV
