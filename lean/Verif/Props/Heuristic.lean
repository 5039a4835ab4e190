import Verif.Model.Heuristic
import Verif.Spec.Heuristic
import Verif.Props.Geometry
import Verif.Model.XR
import Mathlib.Data.List.GetD
/-
C41: the heuristic distance is the Euclidean distance, in cells, to the goal.
-/
namespace FMV
open Arith Shape FMM Spec

theorem absUI_diff {p h : Nat} (hp : p < 2147483648) (hh : h < 2147483648) : absUI (toI32 (u32sub p h)) = if h ≤ p then p - h else h - p := by
  by_cases hle : h ≤ p
  · rw [u32sub_of_le hle (by omega)]
    unfold toI32 absUI
    rw [if_pos (show p - h < 2147483648 by omega), if_pos hle]
    split <;> omega
  · rw [u32sub_of_gt (by omega) (by omega)]
    unfold toI32 absUI
    rw [if_neg (show ¬ (4294967296 - (h - p) < 2147483648) by omega), if_neg hle]
    split <;> omega

theorem foldl_sq (cs : List Nat) (a : ℝ) (h : ∀ c ∈ cs, c ≤ 65535) :
    cs.foldl (fun (acc : XR) c => add acc (ofNat (u32 (c * c)))) (XR.fin a) = XR.fin (a + (cs.map (fun c : Nat => ((c:ℝ))^2)).sum) := by
  induction cs generalizing a with
  | nil => simp
  | cons c cs ih =>
    have hc := h c (by simp)
    have hcc : c * c < 4294967296 := by nlinarith
    rw [List.foldl_cons]
    have : (add (XR.fin a) (ofNat (u32 (c * c))) : XR) = XR.fin (a + (c:ℝ)^2) := by
      rw [u32_of_lt hcc]
      show XR.add (XR.fin a) (XR.fin _) = _
      simp only [XR.add]
      congr 1; push_cast; ring
    rw [this, ih _ (fun x hx => h x (by simp [hx])), List.map_cons, List.sum_cons, add_assoc]

theorem cellDist_exact {dims : List Nat} (s : Shape) (i : Nat) (h : ∀ c ∈ s.idx2coord i, c ≤ 65535) :
    (cellDist s i : XR) = XR.fin (Real.sqrt (((s.idx2coord i).map (fun c : Nat => ((c:ℝ))^2)).sum)) := by
  unfold cellDist
  rw [show (zero : XR) = XR.fin 0 from rfl, foldl_sq _ _ h, zero_add]
  show XR.sqrt (XR.fin _) = _
  simp only [XR.sqrt]
  rw [if_neg]
  push Not
  apply List.sum_nonneg
  simp only [List.mem_map, forall_exists_index, and_imp]
  rintro _ c _ rfl; positivity

theorem zipWith_diff_sq : ∀ (a b : List Nat), (∀ x ∈ a, x < 2147483648) → (∀ x ∈ b, x < 2147483648) →
    ((List.zipWith (fun p h => absUI (toI32 (u32sub p h))) a b).map (fun c : Nat => ((c:ℝ))^2)) =
      List.zipWith (fun (x y : Nat) => ((x : ℝ) - (y : ℝ)) ^ 2) a b := by
  intro a
  induction a with
  | nil => intro b _ _; simp
  | cons x a ih =>
    intro b ha hb
    cases b with
    | nil => simp
    | cons y b =>
      simp only [List.zipWith_cons_cons, List.map_cons]
      rw [ih b (fun z hz => ha z (by simp [hz])) (fun z hz => hb z (by simp [hz])), absUI_diff (ha x (by simp)) (hb y (by simp))]
      congr 1
      split
      · next h => rw [Nat.cast_sub h]
      · next h => rw [Nat.cast_sub (by omega)]; ring

/-- the coordinates of the difference lie in the grid -/
theorem diff_inBox {dims : List Nat} {a b : List Nat} (ha : InBox dims a) (hb : InBox dims b) (hd : ∀ n ∈ dims, n ≤ 65536) :
    InBox dims (List.zipWith (fun p h => absUI (toI32 (u32sub p h))) a b) := by
  refine ⟨by rw [List.length_zipWith, ha.1, hb.1, min_self], fun k hk => ?_⟩
  have h1 := ha.2 k hk
  have h2 := hb.2 k hk
  have hka : k < a.length := by rw [ha.1]; exact hk
  have hkb : k < b.length := by rw [hb.1]; exact hk
  have hdk : dims.getD k 0 ≤ 65536 := by
    rw [List.getD_eq_getElem _ _ hk]; exact hd _ (List.getElem_mem hk)
  rw [List.getD_eq_getElem _ _ (by rw [List.length_zipWith]; omega), List.getElem_zipWith]
  rw [List.getD_eq_getElem _ _ hka] at h1
  rw [List.getD_eq_getElem _ _ hkb] at h2
  rw [absUI_diff (by omega) (by omega)]
  split <;> omega

theorem _root_.FMV.Spec.InBox.mem_lt {dims cs : List Nat} (h : InBox dims cs) {B : Nat} (hd : ∀ n ∈ dims, n ≤ B) : ∀ c ∈ cs, c < B := by
  intro c hc
  obtain ⟨k, hk, rfl⟩ := List.mem_iff_getElem.1 hc
  have hk' : k < dims.length := by rw [← h.1]; exact hk
  have := h.2 k hk'
  rw [List.getD_eq_getElem _ _ hk, List.getD_eq_getElem _ _ hk'] at this
  exact lt_of_lt_of_le this (hd _ (List.getElem_mem hk'))

/-- the lookup stays inside the table -/
theorem C41_table_index_in_range {dims : List Nat} (h : Fits dims (2^32)) (hd : ∀ n ∈ dims, n ≤ 65536) {i goal : Nat} (hi : i < dims.prod)
    (hg : goal < dims.prod) : distIdx (Shape.mk' dims) ((Shape.mk' dims).idx2coord goal) i < (Shape.mk' dims).ncells := by
  have hN := mk'_ncells h
  obtain ⟨bi, _⟩ := C01_idx_roundtrip dims h i (by rw [hN]; exact hi)
  obtain ⟨bg, _⟩ := C01_idx_roundtrip dims h goal (by rw [hN]; exact hg)
  exact (C01_coord_roundtrip dims h _ (diff_inBox bi bg hd)).1

/-- **C41**: on every grid whose sizes are at most 65536, the value used by FMM* as heuristic distance of cell `i` is the Euclidean distance, in
cells, between `i` and the goal (exact arithmetic). -/
theorem C41_heuristic_is_euclidean {dims : List Nat} (h : Fits dims (2^32)) (hd : ∀ n ∈ dims, n ≤ 65536) {i goal : Nat} (hi : i < dims.prod)
    (hg : goal < dims.prod) (old : Nat → XR) :
    getPrecomputedDistance (Shape.mk' dims) (precomputeDistances (Shape.mk' dims) old) ((Shape.mk' dims).idx2coord goal) i =
      XR.fin (euclid ((Shape.mk' dims).idx2coord i) ((Shape.mk' dims).idx2coord goal)) := by
  have hN := mk'_ncells h
  obtain ⟨bi, _⟩ := C01_idx_roundtrip dims h i (by rw [hN]; exact hi)
  obtain ⟨bg, _⟩ := C01_idx_roundtrip dims h goal (by rw [hN]; exact hg)
  have bd := diff_inBox bi bg hd
  obtain ⟨hlt, _, hback⟩ := C01_coord_roundtrip dims h _ bd
  unfold getPrecomputedDistance precomputeDistances distIdx
  rw [if_pos hlt, cellDist_exact (dims := dims) _ _ (by rw [hback]; intro c hc; have := bd.mem_lt hd c hc; omega), hback,
    zipWith_diff_sq _ _ (fun x hx => by have := bi.mem_lt hd x hx; omega) (fun x hx => by have := bg.mem_lt hd x hx; omega)]
  rfl

/-- The heuristic is zero at the goal and positive elsewhere. -/
theorem C41_zero_iff_goal {dims : List Nat} (h : Fits dims (2^32)) (hd : ∀ n ∈ dims, n ≤ 65536) {i goal : Nat} (hi : i < dims.prod)
    (hg : goal < dims.prod) (old : Nat → XR) :
    getPrecomputedDistance (Shape.mk' dims) (precomputeDistances (Shape.mk' dims) old) ((Shape.mk' dims).idx2coord goal) i = XR.fin 0 ↔ i = goal := by
  rw [C41_heuristic_is_euclidean h hd hi hg]
  have hN := mk'_ncells h
  obtain ⟨bi, ri⟩ := C01_idx_roundtrip dims h i (by rw [hN]; exact hi)
  obtain ⟨bg, rg⟩ := C01_idx_roundtrip dims h goal (by rw [hN]; exact hg)
  constructor
  · intro he
    have he : euclid _ _ = 0 := XR.fin.inj he
    have hnn : ∀ x ∈ List.zipWith (fun (x y : Nat) => ((x : ℝ) - (y : ℝ)) ^ 2) ((Shape.mk' dims).idx2coord i) ((Shape.mk' dims).idx2coord goal), (0:ℝ) ≤ x := by
      intro x hx
      obtain ⟨k, hk, rfl⟩ := List.mem_iff_getElem.1 hx
      rw [List.getElem_zipWith]; positivity
    have hs := (Real.sqrt_eq_zero (List.sum_nonneg hnn)).1 he
    rw [← ri, ← rg]
    congr 1
    apply List.ext_getElem (by rw [bi.1, bg.1])
    intro k h1 h2
    have hk : k < (List.zipWith (fun (x y : Nat) => ((x : ℝ) - (y : ℝ)) ^ 2) ((Shape.mk' dims).idx2coord i) ((Shape.mk' dims).idx2coord goal)).length := by
      rw [List.length_zipWith]; omega
    have := List.all_zero_of_le_zero_le_of_sum_eq_zero hnn hs (List.getElem_mem hk)
    rw [List.getElem_zipWith] at this
    have := pow_eq_zero_iff (two_ne_zero) |>.1 this
    exact_mod_cast sub_eq_zero.1 this
  · rintro rfl
    congr 1
    unfold euclid
    rw [Real.sqrt_eq_zero']
    have : ∀ l : List Nat, (List.zipWith (fun (x y : Nat) => ((x : ℝ) - (y : ℝ)) ^ 2) l l).sum = 0 := by
      intro l; induction l with
      | nil => simp
      | cons x l ih => simp [ih]
    exact (this _).le

/-- Above that size the 32-bit products wrap: in a 65537 x 2 grid the heuristic distance between the two ends of a row is 0 instead of 65536. -/
theorem C41_refuted_large : ∃ (dims : List Nat) (i goal : Nat), Fits dims (2^31) ∧ i < dims.prod ∧ goal < dims.prod ∧ ∀ old : Nat → XR,
    getPrecomputedDistance (Shape.mk' dims) (precomputeDistances (Shape.mk' dims) old) ((Shape.mk' dims).idx2coord goal) i = XR.fin 0 ∧
    euclid ((Shape.mk' dims).idx2coord i) ((Shape.mk' dims).idx2coord goal) = 65536 := by
  refine ⟨[65537, 2], 65536, 0, ⟨by decide, by decide, by decide⟩, by decide, by decide, fun old => ?_⟩
  have e1 : (Shape.mk' [65537, 2]).idx2coord 65536 = [65536, 0] := by decide
  have e2 : (Shape.mk' [65537, 2]).idx2coord 0 = [0, 0] := by decide
  have e3 : distIdx (Shape.mk' [65537, 2]) [0, 0] 65536 = 65536 := by decide
  constructor
  · unfold getPrecomputedDistance precomputeDistances
    rw [e2, e3]
    rw [if_pos (by decide)]
    unfold cellDist
    rw [e1]
    simp only [List.foldl_cons, List.foldl_nil]
    show XR.sqrt (XR.add (XR.add (XR.fin 0) (XR.fin _)) (XR.fin _)) = _
    simp [XR.add, u32, XR.sqrt]
  · rw [e1, e2]
    unfold euclid
    simp

/-- non-vacuity: in a 5 x 4 grid, cell (4,3) is at distance 5 from the goal (0,0) -/
example : Fits [5,4] (2^32) ∧ (∀ n ∈ [5,4], n ≤ 65536) ∧ 19 < [5,4].prod ∧ 
    euclid ((Shape.mk' [5,4]).idx2coord 19) ((Shape.mk' [5,4]).idx2coord 0) = 5 := by
  refine ⟨⟨by decide, by decide, by decide⟩, by decide, by decide, ?_⟩
  have e1 : (Shape.mk' [5,4]).idx2coord 19 = [4, 3] := by decide
  have e2 : (Shape.mk' [5,4]).idx2coord 0 = [0, 0] := by decide
  rw [e1, e2]
  unfold euclid
  rw [show (List.zipWith (fun (x y : Nat) => ((x : ℝ) - (y : ℝ)) ^ 2) [4,3] [0,0]).sum = 5 ^ 2 by norm_num]
  exact Real.sqrt_sq (by norm_num)

end FMV
