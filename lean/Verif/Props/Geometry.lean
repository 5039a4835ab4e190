import Verif.Spec.Geometry
import Verif.Lemmas.GridBasic
import Verif.Model.XR
/-!
# Properties C01 - C07: the n-dimensional grid map
-/
set_option linter.unusedSectionVars false
set_option linter.unusedVariables false
namespace FMV
open Arith Shape Spec
variable {F : Type} [Arith F]

/-! ## C01 -/

theorem wsum_cons_dims (n : Nat) (ns : List Nat) : ∀ (cs : List Nat) (k : Nat),
    wsum (n :: ns) (k+1) cs = n * wsum ns k cs := by
  intro cs
  induction cs with
  | nil => intro k; simp [wsum]
  | cons c cs ih =>
    intro k
    simp only [wsum, ih]
    have : strideOf (n :: ns) (k+1) = n * strideOf ns k := by simp [strideOf]
    rw [this]; ring

theorem wsum_rowMajor : ∀ (dims cs : List Nat), cs.length = dims.length →
    wsum dims 0 cs = rowMajor dims cs := by
  intro dims
  induction dims with
  | nil => intro cs h; cases cs with
    | nil => rfl
    | cons => simp at h
  | cons n ns ih =>
    intro cs h
    cases cs with
    | nil => simp at h
    | cons c cs =>
      simp only [wsum, rowMajor, strideOf_zero, Nat.mul_one, wsum_cons_dims]
      rw [ih cs (by simpa using h)]

/-- **C01** (index to coordinates and back): for every shape with at least two dimensions, positive
sizes and a cell count representable in 32 bits, and every index of the grid: the coordinates are
in range and converting them back gives the same index. -/
theorem C01_idx_roundtrip (dims : List Nat) (h : Fits dims (2^32)) (i : Nat)
    (hi : i < (Shape.mk' dims).ncells) :
    InBox dims ((Shape.mk' dims).idx2coord i) ∧
    (Shape.mk' dims).coord2idx ((Shape.mk' dims).idx2coord i) = i := by
  rw [mk'_ncells h] at hi
  have hb : InBox dims ((Shape.mk' dims).idx2coord i) := by
    rw [idx2coord_eq h hi]
    refine ⟨by simp, ?_⟩
    intro k hk
    rw [List.getD_eq_getElem?_getD, List.getElem?_map, List.getElem?_range hk]
    exact digit_lt h.pos hk i
  refine ⟨hb, ?_⟩
  rw [(coord2idx_eq h hb.1 hb.2).1, idx2coord_eq h hi, wsum_digits _ (le_refl _), strideOf_length,
    Nat.mod_eq_of_lt hi]

/-- **C01** (coordinates to index and back): every in-range coordinate vector has an index below
`size()`, namely its row-major position, and converting it back gives the same coordinates. -/
theorem C01_coord_roundtrip (dims : List Nat) (h : Fits dims (2^32)) (cs : List Nat)
    (hc : InBox dims cs) :
    (Shape.mk' dims).coord2idx cs < (Shape.mk' dims).ncells ∧
    (Shape.mk' dims).coord2idx cs = rowMajor dims cs ∧
    (Shape.mk' dims).idx2coord ((Shape.mk' dims).coord2idx cs) = cs := by
  obtain ⟨h1, h2⟩ := coord2idx_eq h hc.1 hc.2
  rw [mk'_ncells h, h1]
  refine ⟨h2, wsum_rowMajor _ _ hc.1, ?_⟩
  rw [idx2coord_eq h h2]
  apply List.ext_getElem
  · simp [hc.1]
  · intro k hk1 hk2
    simp only [List.length_map, List.length_range] at hk1
    simp only [List.getElem_map, List.getElem_range]
    rw [digit_wsum h.pos hc.1 hc.2 hk1, List.getD_eq_getElem?_getD, List.getElem?_eq_getElem hk2]
    rfl

/-- `size()` is the product of the dimension sizes. -/
theorem C01_size (dims : List Nat) (h : Fits dims (2^32)) :
    (Shape.mk' dims).ncells = dims.prod := mk'_ncells h

/-- The hypotheses are met by a 3-dimensional 4 x 3 x 5 grid; index 37 has coordinates (1,0,3). -/
example : Fits [4,3,5] (2^32) ∧ 37 < (Shape.mk' [4,3,5]).ncells ∧
    (Shape.mk' [4,3,5]).idx2coord 37 = [1,0,3] ∧ (Shape.mk' [4,3,5]).coord2idx [1,0,3] = 37 :=
  ⟨⟨by decide, by decide, by decide⟩, by decide, by decide, by decide⟩

/-! ## C02, C03 -/

theorem adjacentIn_iff (dims : List Nat) (h : Fits dims (2^31+1)) {i j k : Nat} (hi : i < dims.prod)
    (hk : k < dims.length) :
    j ∈ (Shape.mk' dims).nbrsDim i k ↔
      j < dims.prod ∧ AdjacentIn k ((Shape.mk' dims).idx2coord i) ((Shape.mk' dims).idx2coord j) := by
  have h32 : Fits dims (2^32) := h.mono (by norm_num)
  have getc : ∀ {i m}, i < dims.prod → m < dims.length →
      ((Shape.mk' dims).idx2coord i).getD m 0 = digit dims i m := by
    intro i m hi hm
    rw [idx2coord_eq h32 hi, List.getD_eq_getElem?_getD, List.getElem?_map, List.getElem?_range hm]
    rfl
  have lenc : ∀ {i}, i < dims.prod → ((Shape.mk' dims).idx2coord i).length = dims.length := by
    intro i hi; rw [idx2coord_eq h32 hi]; simp
  constructor
  · intro hj
    have hjl := nbrsDim_lt h hi hk hj
    obtain ⟨h1, h2⟩ := nbrsDim_digits h hi hk hj
    refine ⟨hjl, by rw [lenc hi, lenc hjl], by rw [lenc hi]; exact hk, ?_, ?_⟩
    · rw [getc hi hk, getc hjl hk]; exact h1
    · intro m hm hne
      rw [lenc hi] at hm
      rw [getc hi hm, getc hjl hm]; exact h2 m hm hne
  · rintro ⟨hjl, _, _, h1, h2⟩
    rw [getc hi hk, getc hjl hk] at h1
    rw [lenc hi] at h2
    have h2' : ∀ m, m < dims.length → m ≠ k → digit dims i m = digit dims j m := by
      intro m hm hne
      have := h2 m hm hne
      rwa [getc hi hm, getc hjl hm] at this
    rcases h1 with h1 | h1
    · exact mem_nbrsDim_of_digits h hi hjl hk h1 h2'
    · exact nbrsDim_symm h hjl hk (mem_nbrsDim_of_digits h hjl hi hk h1 (fun m hm hne => (h2' m hm hne).symm))

/-- **C02**: on every grid with at most 2^31 cells `getNeighbors(idx)` lists, without repetition,
exactly the in-range cells whose coordinates differ from those of `idx` by one in exactly one
dimension; at most `2*ndims` of them. -/
theorem C02_getNeighbors_exact (dims : List Nat) (h : Fits dims (2^31+1)) (i : Nat)
    (hi : i < (Shape.mk' dims).ncells) :
    ((Shape.mk' dims).nbrs i).Nodup ∧
    ((Shape.mk' dims).nbrs i).length ≤ 2 * dims.length ∧
    ∀ j, j ∈ (Shape.mk' dims).nbrs i ↔
      j < (Shape.mk' dims).ncells ∧
      AxisAdjacent ((Shape.mk' dims).idx2coord i) ((Shape.mk' dims).idx2coord j) := by
  have h32 : Fits dims (2^32) := h.mono (by norm_num)
  rw [mk'_ncells h32] at hi ⊢
  refine ⟨nbrs_nodup h hi, nbrs_length_le _ _, ?_⟩
  intro j
  rw [mem_nbrs]
  constructor
  · rintro ⟨k, hk, hj⟩
    have := (adjacentIn_iff dims h hi hk).1 hj
    exact ⟨this.1, k, this.2⟩
  · rintro ⟨hj, k, hadj⟩
    have hk : k < dims.length := by
      have := hadj.2.1
      rw [idx2coord_eq h32 hi] at this
      simpa using this
    exact ⟨k, hk, (adjacentIn_iff dims h hi hk).2 ⟨hj, hadj⟩⟩

/-- non-vacuity: the centre of a 3 x 3 grid has the four neighbours 3, 5, 1, 7 and a corner two -/
example : Fits [3,3] (2^31+1) ∧ 4 < (Shape.mk' [3,3]).ncells ∧
    (Shape.mk' [3,3]).nbrs 4 = [3,5,1,7] ∧ (Shape.mk' [3,3]).nbrs 0 = [1,3] :=
  ⟨⟨by decide, by decide, by decide⟩, by decide, by decide, by decide⟩

/-- The bound 2^31 in C02 is needed: on a (2^31+2) x 1 grid, which has fewer than 2^32 cells, the
32-bit wrap-around makes `getNeighbors(0)` report the cell with index 2^31-2, which is not adjacent. -/
theorem C02_refuted_above_2_31 :
    Fits [2147483650, 1] (2^32) ∧ 2147483646 ∈ (Shape.mk' [2147483650, 1]).nbrs 0 ∧
    ¬ AxisAdjacent ((Shape.mk' [2147483650, 1]).idx2coord 0)
        ((Shape.mk' [2147483650, 1]).idx2coord 2147483646) := by
  refine ⟨⟨by decide, by decide, by decide⟩, by decide, ?_⟩
  have e0 : (Shape.mk' [2147483650, 1]).idx2coord 0 = [0,0] := by decide
  have e1 : (Shape.mk' [2147483650, 1]).idx2coord 2147483646 = [2147483646,0] := by decide
  rw [e0, e1]
  rintro ⟨k, _, hk, h1, _⟩
  simp only [List.length_cons, List.length_nil] at hk
  have : k = 0 ∨ k = 1 := by omega
  rcases this with rfl | rfl <;> simp at h1

/-- **C03**: adjacency is symmetric and irreflexive. -/
theorem C03_adjacency_symmetric (dims : List Nat) (h : Fits dims (2^31+1)) (i j : Nat)
    (hi : i < (Shape.mk' dims).ncells) (hj : j < (Shape.mk' dims).ncells) :
    (j ∈ (Shape.mk' dims).nbrs i ↔ i ∈ (Shape.mk' dims).nbrs j) ∧ i ∉ (Shape.mk' dims).nbrs i := by
  have h32 : Fits dims (2^32) := h.mono (by norm_num)
  rw [mk'_ncells h32] at hi hj
  refine ⟨?_, ?_⟩
  · rw [mem_nbrs, mem_nbrs]
    exact ⟨fun ⟨k, hk, hm⟩ => ⟨k, hk, nbrsDim_symm h hi hk hm⟩,
      fun ⟨k, hk, hm⟩ => ⟨k, hk, nbrsDim_symm h hj hk hm⟩⟩
  · rw [mem_nbrs]
    rintro ⟨k, hk, hm⟩
    have := (nbrsDim_digits h hi hk hm).1
    omega

example : 5 ∈ (Shape.mk' [3,3]).nbrs 4 ∧ 4 ∈ (Shape.mk' [3,3]).nbrs 5 := by decide

/-! ## C04 -/

/-- **C04** (partial: dimensions with at least two cells).  `getMinValueInDim(idx, dim)` returns the
value of a cell adjacent to `idx` in dimension `dim`; no cell adjacent in that dimension has a smaller value (provided `<`
is irreflexive and transitive, as it is for doubles); the result does not depend on the content of the
scratch buffer, i.e. on earlier queries; and the call changes nothing but that buffer.
Missing: dimensions of size 1, for which the property is false (`C04_refuted_size_one`). -/
theorem C04_min_in_dim_partial (L : LtLaws F) (g : Grid F) (dims : List Nat)
    (hs : g.shape = Shape.mk' dims) (h : Fits dims (2^31+1)) (i dim : Nat) (hi : i < g.size)
    (hd : dim < dims.length) (h2 : 2 ≤ dims.getD dim 0) :
    let adj := fun j => j < g.size ∧ AdjacentIn dim (g.shape.idx2coord i) (g.shape.idx2coord j)
    (∃ j, adj j ∧ (g.getMinValueInDimS i dim).1 = g.value j) ∧
    (∀ j, adj j → lt (g.value j) (g.getMinValueInDimS i dim).1 = false) ∧
    (∀ scr, (({ g with scratch := scr } : Grid F).getMinValueInDimS i dim).1 = (g.getMinValueInDimS i dim).1) ∧
    (∃ scr, (g.getMinValueInDimS i dim).2 = { g with scratch := scr }) := by
  intro adj
  have h32 : Fits dims (2^32) := h.mono (by norm_num)
  have hsz : g.size = dims.prod := by unfold Grid.size; rw [hs, mk'_ncells h32]
  rw [hsz] at hi
  have hadj : ∀ j, adj j ↔ j ∈ g.shape.nbrsDim i dim := by
    intro j; simp only [adj, hsz, hs]; exact (adjacentIn_iff dims h hi hd).symm
  have hne : g.shape.nbrsDim i dim ≠ [] := by rw [hs]; exact nbrsDim_length_pos h hi hd h2
  refine ⟨?_, ?_, ?_, g.getMinValueInDimS_snd i dim⟩
  · rw [g.getMinValueInDimS_eq hne]
    unfold Grid.minDim
    match hns : g.shape.nbrsDim i dim with
    | [] => exact absurd hns hne
    | [a] => exact ⟨a, (hadj a).2 (by rw [hns]; simp), rfl⟩
    | a :: b :: l =>
      simp only
      split
      · exact ⟨a, (hadj a).2 (by rw [hns]; simp), rfl⟩
      · exact ⟨b, (hadj b).2 (by rw [hns]; simp), rfl⟩
  · intro j hj
    rw [hadj] at hj
    rw [g.getMinValueInDimS_eq hne]
    unfold Grid.minDim
    have hlen := nbrsDim_length_le g.shape i dim
    match hns : g.shape.nbrsDim i dim with
    | [] => exact absurd hns hne
    | [a] => rw [hns] at hj; simp at hj; subst hj; exact L.irrefl _
    | a :: b :: l =>
      rw [hns] at hlen hj
      have hl : l = [] := by simpa using hlen
      subst hl
      simp only
      simp only [List.mem_cons, List.not_mem_nil, or_false] at hj
      split
      · next hlt =>
        rcases hj with rfl | rfl
        · exact L.irrefl _
        · exact L.asymm hlt
      · next hlt =>
        rcases hj with rfl | rfl
        · simpa using hlt
        · exact L.irrefl _
  · intro scr
    rw [g.getMinValueInDimS_eq hne, Grid.getMinValueInDimS_eq { g with scratch := scr } hne]
    rfl

/-- non-vacuity of C04: a 3 x 2 grid over the extended reals -/
example : ∃ (g : Grid XR), g.shape = Shape.mk' [3,2] ∧ LtLaws XR ∧ Fits [3,2] (2^31+1) ∧ 4 < g.size ∧
    2 ≤ [3,2].getD 1 0 :=
  ⟨Grid.create [3,2] one (0,0), rfl, XR.ltLaws, ⟨by decide, by decide, by decide⟩, by decide, by decide⟩

/-- **C04 refuted for dimensions of size 1**: on *every* 3 x 1 grid, asking for the minimum of the
middle cell in dimension 1 (where it has no neighbours) after asking in dimension 0, as
`solveEikonal` does, returns again the minimum of dimension 0: the stale buffer is read. -/
theorem C04_refuted_size_one (g : Grid F) (hs : g.shape = Shape.mk' [3,1]) :
    g.shape.nbrsDim 1 1 = [] ∧
    ((g.getMinValueInDimS 1 0).2.getMinValueInDimS 1 1).1 = (g.getMinValueInDimS 1 0).1 := by
  have e0 : (Shape.mk' [3,1]).nbrsDim 1 0 = [0,2] := by decide
  have e1 : (Shape.mk' [3,1]).nbrsDim 1 1 = [] := by decide
  refine ⟨by rw [hs, e1], ?_⟩
  simp [Grid.getMinValueInDimS, hs, e0, e1, Grid.value]

/-! ## C05 -/

/-- **C05**: after `resize(dims)` the grid has exactly `prod dims` cells, every cell carries its own
index, infinite time, unit speed, zero heuristic, bucket 0 and is OPEN; `getDimSizes` returns `dims`; the grid reports
clean; leaf size and obstacle list are untouched — whatever the grid contained before. -/
theorem C05_resize (g : Grid F) (dims : List Nat) (h : Fits dims (2^32)) :
    (g.resize dims).size = dims.prod ∧ (g.resize dims).toList.length = dims.prod ∧
    (g.resize dims).shape.dims = dims ∧ (g.resize dims).clean = true ∧
    (g.resize dims).leaf = g.leaf ∧ (g.resize dims).occupied = g.occupied ∧
    ∀ i, i < dims.prod → (g.resize dims).toList[i]? =
      some { value := inf, occupancy := one, hValue := zero, state := .opn, bucket := 0, index := i } := by
  have hn : (Shape.mk' dims).ncells = dims.prod := mk'_ncells h
  refine ⟨hn, ?_, rfl, rfl, rfl, rfl, ?_⟩
  · simp [Grid.toList, Grid.resize, hn]
  · intro i hi
    simp [Grid.toList, Grid.resize, hn, hi, Cell.default]

example : Fits [4,3,5] (2^32) ∧ [4,3,5].prod = 60 := ⟨⟨by decide, by decide, by decide⟩, by decide⟩

/-- The cell count is computed modulo 2^32: a 65536 x 65536 grid silently gets no cells at all. -/
theorem C05_wraps_above_32_bits : (Shape.mk' [65536, 65536]).ncells = 0 := by decide

/-! ## C06 -/

theorem foldl_max (L : LtLaws F) (p : Cell F → Bool) (f : Cell F → F) :
    ∀ (l : List (Cell F)) (m0 : F),
      let r := l.foldl (fun mx c => if p c && lt mx (f c) then f c else mx) m0
      (r = m0 ∨ ∃ c ∈ l, p c = true ∧ r = f c) ∧
      (∀ c ∈ l, p c = true → lt r (f c) = false) ∧
      (∀ x, lt x m0 = true → lt x r = true) ∧ (lt r m0 = false) := by
  intro l
  induction l with
  | nil =>
    intro m0 r
    exact ⟨Or.inl rfl, by simp, fun x h => h, L.irrefl _⟩
  | cons c l ih =>
    intro m0 r
    by_cases hc : (p c && lt m0 (f c)) = true
    · have hr : r = l.foldl (fun mx c => if p c && lt mx (f c) then f c else mx) (f c) := by
        simp only [r, List.foldl_cons, hc, if_true]
      obtain ⟨h1, h2, h3, h4⟩ := ih (f c)
      rw [← hr] at h1 h2 h3 h4
      simp only [Bool.and_eq_true] at hc
      refine ⟨Or.inr ?_, ?_, ?_, ?_⟩
      · rcases h1 with h1 | ⟨d, hd, hp, he⟩
        · exact ⟨c, by simp, hc.1, h1⟩
        · exact ⟨d, by simp [hd], hp, he⟩
      · intro d hd hp
        rcases List.mem_cons.1 hd with rfl | hd
        · exact h4
        · exact h2 d hd hp
      · intro x hx; exact h3 x (L.trans _ _ _ hx hc.2)
      · exact L.asymm (h3 m0 hc.2)
    · have hr : r = l.foldl (fun mx c => if p c && lt mx (f c) then f c else mx) m0 := by
        simp only [r, List.foldl_cons, hc]; rfl
      obtain ⟨h1, h2, h3, h4⟩ := ih m0
      rw [← hr] at h1 h2 h3 h4
      refine ⟨?_, ?_, h3, h4⟩
      · rcases h1 with h1 | ⟨d, hd, hp, he⟩
        · exact Or.inl h1
        · exact Or.inr ⟨d, by simp [hd], hp, he⟩
      · intro d hd hp
        rcases List.mem_cons.1 hd with rfl | hd
        · simp only [hp, Bool.true_and] at hc
          by_contra hlt
          simp only [Bool.not_eq_false] at hlt
          rcases h1 with h1 | ⟨e, he, hpe, hre⟩
          · rw [h1] at hlt; exact hc hlt
          · -- r >= m0, and r < f d would give m0 < f d unless r = m0
            by_cases hm : lt m0 r = true
            · exact hc (L.trans _ _ _ hm hlt)
            · -- r is reached from m0 only by strict increases
              have : r = m0 ∨ lt m0 r = true := by
                clear h2 h3 h4 hc hlt hm
                rw [hr]
                clear hr
                clear he hre ih hd r
                induction l generalizing m0 with
                | nil => exact Or.inl rfl
                | cons a l ih2 =>
                  rw [List.foldl_cons]
                  split
                  · next hcond =>
                    simp only [Bool.and_eq_true] at hcond
                    rcases ih2 (f a) with h | h
                    · right; rw [h]; exact hcond.2
                    · right; exact L.trans _ _ _ hcond.2 h
                  · exact ih2 m0
              rcases this with h | h
              · rw [h] at hlt; exact hc hlt
              · exact hm h
        · exact h2 d hd hp

/-- **C06** `getMaxValue`: the result is 0 or the value of a cell with a non-infinite value, is not
below 0, and no cell with a non-infinite value exceeds it. -/
theorem C06_getMaxValue (L : LtLaws F) (g : Grid F) :
    (g.getMaxValue = zero ∨ ∃ i, i < g.size ∧ isInf (g.value i) = false ∧ g.getMaxValue = g.value i) ∧
    (∀ i, i < g.size → isInf (g.value i) = false → lt g.getMaxValue (g.value i) = false) ∧
    lt g.getMaxValue zero = false := by
  obtain ⟨h1, h2, _, h4⟩ := foldl_max L (fun c => !(isInf c.value)) (fun c => c.value) g.toList zero
  have key : ∀ c, c ∈ g.toList ↔ ∃ i, i < g.size ∧ g.cells i = c := by
    intro c; simp [Grid.toList, Grid.size]
  refine ⟨?_, ?_, h4⟩
  · rcases h1 with h1 | ⟨c, hc, hp, he⟩
    · exact Or.inl h1
    · obtain ⟨i, hi, rfl⟩ := (key c).1 hc
      exact Or.inr ⟨i, hi, by simpa [Grid.value] using hp, he⟩
  · intro i hi hinf
    exact h2 (g.cells i) ((key _).2 ⟨i, hi, rfl⟩) (by simpa [Grid.value] using hinf)

/-- **C06** `getMaxSpeed`: the result is 0 or the velocity of some cell, is not below 0, and no cell's velocity exceeds it. -/
theorem C06_getMaxSpeed (L : LtLaws F) (g : Grid F) :
    (g.getMaxSpeed = zero ∨ ∃ i, i < g.size ∧ g.getMaxSpeed = g.vel i) ∧
    (∀ i, i < g.size → lt g.getMaxSpeed (g.vel i) = false) ∧
    lt g.getMaxSpeed zero = false := by
  obtain ⟨h1, h2, _, h4⟩ := foldl_max L (fun _ => true) (fun c => c.occupancy) g.toList zero
  have key : ∀ c, c ∈ g.toList ↔ ∃ i, i < g.size ∧ g.cells i = c := by
    intro c; simp [Grid.toList, Grid.size]
  have he : g.getMaxSpeed = g.toList.foldl (fun mx c => if true && lt mx c.occupancy then c.occupancy else mx) zero := by
    simp [Grid.getMaxSpeed]
  rw [he]
  refine ⟨?_, ?_, h4⟩
  · rcases h1 with h1 | ⟨c, hc, hp, he⟩
    · exact Or.inl h1
    · obtain ⟨i, hi, rfl⟩ := (key c).1 hc
      exact Or.inr ⟨i, hi, he⟩
  · intro i hi
    exact h2 (g.cells i) ((key _).2 ⟨i, hi, rfl⟩) rfl

/-- The hypothesis `LtLaws` holds for the extended reals; there is a grid whose maximum is not 0. -/
example : ∃ g : Grid XR, g.size = 6 ∧ g.getMaxSpeed ≠ zero := by
  refine ⟨Grid.create [3,2] one (0,0), by decide, ?_⟩
  intro h0
  have := (C06_getMaxSpeed XR.ltLaws (Grid.create [3,2] (one : XR) (0,0))).2.1 0 (by decide)
  rw [h0] at this
  simp [Grid.vel, Grid.create, Grid.resize, Cell.default, Arith.lt, XR.lt, Arith.zero, Arith.one] at this

/-! ## C07 -/

/-- **C07**: `clean()` on a grid that is not clean resets time, heuristic, bucket and state of every
cell and keeps velocity and index, sizes, leaf size and obstacle list; afterwards the grid is clean. On
a grid flagged clean nothing changes. -/
theorem C07_clean (g : Grid F) :
    (g.clean = true → g.cleanGrid = g) ∧
    (g.clean = false →
      g.cleanGrid.clean = true ∧ g.cleanGrid.shape = g.shape ∧ g.cleanGrid.leaf = g.leaf ∧
      g.cleanGrid.occupied = g.occupied ∧
      ∀ i, (g.cleanGrid.cells i) =
        { value := inf, occupancy := (g.cells i).occupancy, hValue := zero, state := .opn, bucket := 0,
          index := (g.cells i).index }) := by
  constructor
  · intro h; simp [Grid.cleanGrid, h]
  · intro h
    refine ⟨by simp [Grid.cleanGrid, h], by simp [Grid.cleanGrid, h], by simp [Grid.cleanGrid, h],
      by simp [Grid.cleanGrid, h], ?_⟩
    intro i
    simp [Grid.cleanGrid, h, Cell.setDefault]

example : ∃ g : Grid XR, g.clean = false ∧ g.size = 6 :=
  ⟨(Grid.create [3,2] one (0,0)).setClean false, rfl, by decide⟩

end FMV
