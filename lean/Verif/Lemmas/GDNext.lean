import Verif.Props.GD
/-!
Sufficient conditions for an iteration of gradient descent to be defined, and its result.
-/
set_option linter.unusedSectionVars false
set_option linter.unusedVariables false
namespace FMV
open Arith Spec Shape
namespace GD
open XR
variable {dims : List Nat} {g : Grid XR}

theorem slope_of {a b : XR} {x : ℝ} (h : IsSlope a b x) :
    (let r := Arith.add (Arith.div (Arith.neg a) (Arith.ofRat 2 1)) (Arith.div b (Arith.ofRat 2 1)); if Arith.isInf r then sgn r else r) = fin x := by
  dsimp only
  rw [two_eq]
  rcases h with ⟨x, y, rfl, rfl, rfl⟩ | ⟨x, rfl, rfl, rfl⟩ | ⟨y, rfl, rfl, rfl⟩
  · have : Arith.add (Arith.div (Arith.neg (fin x : XR)) (fin 2)) (Arith.div (fin y) (fin 2)) = fin ((y - x)/2) := by
      show XR.add (XR.div (XR.neg (fin x)) (fin 2)) (XR.div (fin y) (fin 2)) = _
      simp [XR.neg, XR.div, XR.add]; ring
    rw [this]; rfl
  · have : Arith.add (Arith.div (Arith.neg (fin x : XR)) (fin 2)) (Arith.div pinf (fin 2)) = pinf := by
      show XR.add (XR.div (XR.neg (fin x)) (fin 2)) (XR.div pinf (fin 2)) = pinf
      simp only [XR.neg, XR.div, XR.add, neg2, if_false]
      try (rw [if_neg (by norm_num : ¬ (2:ℝ) = 0)])
    rw [this]
    show sgn pinf = _
    unfold sgn
    have h1 : Arith.lt (Arith.zero : XR) pinf = true := rfl
    have h2 : Arith.lt pinf (Arith.zero : XR) = false := rfl
    rw [h1, h2]
    show fin (((1 - 0 : ℤ) : ℝ) / ((1:Nat):ℝ)) = _
    norm_num
  · have : Arith.add (Arith.div (Arith.neg (pinf : XR)) (fin 2)) (Arith.div (fin y) (fin 2)) = ninf := by
      show XR.add (XR.div (XR.neg pinf) (fin 2)) (XR.div (fin y) (fin 2)) = ninf
      simp only [XR.neg, XR.div, XR.add, neg2, if_false]
      try (rw [if_neg (by norm_num : ¬ (2:ℝ) = 0)])
    rw [this]
    show sgn ninf = _
    unfold sgn
    have h1 : Arith.lt (Arith.zero : XR) ninf = false := rfl
    have h2 : Arith.lt ninf (Arith.zero : XR) = true := rfl
    rw [h1, h2]
    show fin (((0 - 1 : ℤ) : ℝ) / ((1:Nat):ℝ)) = _
    norm_num

theorem grad_of (hf : Fits dims (2^31+1)) (hs : g.shape = Shape.mk' dims) {idx i : Nat} (hi : i < dims.length) (hb : strideProd dims i ≤ idx)
    (ha : idx + strideProd dims i < dims.prod) {x : ℝ} (h : IsSlope (g.value (idx - strideProd dims i)) (g.value (idx + strideProd dims i)) x) :
    grad g idx i = some (fin x) := by
  have hlt := hf.lt
  have hnc : g.shape.ncells = dims.prod := by rw [hs]; exact mk'_ncells (hf.mono (by norm_num))
  have e1 : read g (u32sub idx (strideProd dims i)) = some (g.value (idx - strideProd dims i)) := by
    rw [u32sub_of_le hb (by omega)]
    unfold read; rw [hnc, if_pos (by omega)]
  have e2 : read g (u32 (idx + strideProd dims i)) = some (g.value (idx + strideProd dims i)) := by
    rw [u32_of_lt (by omega)]
    unfold read; rw [hnc, if_pos ha]
  unfold grad
  rw [hs, stride_eq hf hi, e1, e2]
  exact congrArg some (slope_of h)

theorem mapM_of {α β : Type} {f : α → Option β} {k : α → β} : ∀ (l : List α), (∀ x ∈ l, f x = some (k x)) → l.mapM f = some (l.map k)
  | [], _ => rfl
  | x :: l, h => by
    rw [List.mapM_cons, h x (by simp), mapM_of l (fun y hy => h y (by simp [hy]))]
    rfl

theorem trunc_nat' {r : ℝ} {n : Nat} (h1 : (n:ℝ) ≤ r) (h2 : r < n + 1) (h3 : n < 2147483648) : Arith.truncInt (fin r) = some (n : Int) := by
  have h0 : (0:ℝ) ≤ r := le_trans (Nat.cast_nonneg n) h1
  have hfl : ⌊r⌋ = (n : Int) := Int.floor_eq_iff.2 ⟨by exact_mod_cast h1, by exact_mod_cast h2⟩
  show (let t : ℤ := if 0 ≤ r then ⌊r⌋ else ⌈r⌉
      if -2147483648 ≤ t ∧ t < 2147483648 then some t else none) = _
  dsimp only
  rw [if_pos h0, hfl, if_pos (by omega)]

/-- One iteration in a cell that is not on the border, when the new point is inside the grid. -/
theorem next_of (hf : Fits dims (2^31+1)) (hs : g.shape = Shape.mk' dims) {δ : ℝ} {s : St XR} (p : Nat → ℝ)
    (hsp : s.point = ((List.range dims.length).map p).map fin)
    (hb : ∀ i, i < dims.length → strideProd dims i ≤ s.idx) (ha : ∀ i, i < dims.length → s.idx + strideProd dims i < dims.prod) (sl : Nat → ℝ)
    (hsl : ∀ i, i < dims.length → IsSlope (g.value (s.idx - strideProd dims i)) (g.value (s.idx + strideProd dims i)) (sl i))
    (m : ℝ) (hm : 0 < m) (hle : ∀ i, i < dims.length → |sl i| ≤ m) (hex : ∃ i, i < dims.length ∧ |sl i| = m)
    (c : Nat → Nat) (hc : ∀ i, i < dims.length → c i < dims.getD i 0)
    (hq : ∀ i, i < dims.length → (c i : ℝ) ≤ p i - δ * sl i / m + 1/2 ∧ p i - δ * sl i / m + 1/2 < c i + 1) :
    next g (fin δ) s = some ⟨(Shape.mk' dims).coord2idx ((List.range dims.length).map c), ((List.range dims.length).map (fun i => p i - δ * sl i / m)).map fin,
      s.path ++ [((List.range dims.length).map (fun i => p i - δ * sl i / m)).map fin], s.vels ++ [g.vel s.idx]⟩ := by
  have hnc : g.shape.ncells = dims.prod := by rw [hs]; exact mk'_ncells (hf.mono (by norm_num))
  have hlt := hf.lt
  have hnd0 : 0 < dims.length := by have := hf.two; omega
  have hgr : grads g s.idx = some (((List.range dims.length).map sl).map fin) := by
    unfold grads
    rw [hs, show (Shape.mk' dims).ndims = dims.length from rfl, List.map_map]
    refine mapM_of _ (fun i hi => ?_)
    rw [List.mem_range] at hi
    exact grad_of hf hs hi (hb i hi) (ha i hi) (hsl i hi)
  have hne : (List.range dims.length).map sl ≠ [] := by
    intro hc
    have := congrArg List.length hc
    simp only [List.length_map, List.length_range, List.length_nil] at this
    omega
  obtain ⟨m', hm1, hm2, y0, hy0, hm3⟩ := maxGrad_spec hne
  obtain ⟨j, hj, rfl⟩ := List.mem_map.1 hy0
  rw [List.mem_range] at hj
  obtain ⟨k, hk, hkm⟩ := hex
  have hmm : |m'| = m := le_antisymm (by rw [← hm3]; exact hle j hj) (by rw [← hkm]; exact hm2 _ (List.mem_map.2 ⟨k, List.mem_range.2 hk, rfl⟩))
  have hmv : move (fin δ) s.point (((List.range dims.length).map sl).map fin) = ((List.range dims.length).map (fun i => p i - δ * sl i / m)).map fin := by
    unfold move
    rw [hm1, abs_fin, hmm, hsp]
    rw [List.map_map, List.map_map, List.map_map, List.zipWith_map, List.zipWith_self]
    apply List.map_congr_left
    intro i _
    show XR.add (fin (p i)) (XR.neg (if m = 0 then infSign (δ * sl i) else fin (δ * sl i / m))) = _
    rw [if_neg hm.ne']
    show fin (p i + -(δ * sl i / m)) = fin (p i - δ * sl i / m)
    rw [sub_eq_add_neg]
  have hdk : ∀ i, i < dims.length → dims.getD i 0 ≤ dims.prod := by
    intro i hi
    have : dims.getD i 0 ∈ dims := by rw [List.getD_eq_getElem _ _ hi]; exact List.getElem_mem _
    exact Nat.le_of_dvd (List.prod_pos hf.pos) (List.dvd_prod this)
  have hco : toCoord (((List.range dims.length).map (fun i => p i - δ * sl i / m)).map fin) = some ((List.range dims.length).map c) := by
    unfold toCoord
    rw [half_eq, List.map_map]
    have : (((List.range dims.length).map (fin ∘ fun i => p i - δ * sl i / m)).mapM (fun x => Arith.truncInt (Arith.add x (fin (1/2)))) : Option (List Int)) =
        some ((List.range dims.length).map (fun i => (c i : Int))) := by
      rw [List.mapM_map]
      refine mapM_of _ (fun i hi => ?_)
      rw [List.mem_range] at hi
      have := hc i hi
      have := hdk i hi
      exact trunc_nat' (hq i hi).1 (hq i hi).2 (by omega)
    rw [this, Option.map_some, List.map_map]
    congr 1
    apply List.map_congr_left
    intro i hi
    rw [List.mem_range] at hi
    have := hc i hi
    have := hdk i hi
    show toU32 (c i : Int) = c i
    rw [toU32_of (by omega) (by omega)]
    simp
  have hin := (C01_coord_roundtrip dims (hf.mono (by norm_num)) ((List.range dims.length).map c) ⟨by simp, fun k hk => by
    rw [List.getD_eq_getElem _ _ (by simpa using hk)]
    simpa using hc k hk⟩)
  unfold next
  rw [hgr]
  dsimp only
  rw [hmv, hco]
  dsimp only
  rw [hs, if_pos hin.1]

end GD
end FMV
