import Verif.Props.Matlab
/-
C77: grids read and written by the MATLAB scripts.
-/
namespace FMV
open Console Text Arith Spec FMV.IO Matlab Shape
variable {F : Type} [Arith F]

namespace Matlab
variable {num : Str → Option F} {nat : F → Option Nat}

theorem linear_eq (dims cs : List Nat) : linear dims cs = rowMajor dims cs := by
  induction dims generalizing cs with
  | nil => cases cs <;> rfl
  | cons d ds ih => cases cs with
    | nil => rfl
    | cons c cs => simp only [linear, rowMajor, ih]

theorem first_line {l : Str} (h : '\n' ∉ l) (r : Str) : (l ++ '\n' :: r).takeWhile (· ≠ '\n') = l ∧ ((l ++ '\n' :: r).dropWhile (· ≠ '\n')).drop 1 = r := by
  induction l with
  | nil => simp
  | cons c cs ih =>
    have hc : c ≠ '\n' := fun e => h (by simp [e])
    obtain ⟨i1, i2⟩ := ih (fun hm => h (by simp [hm]))
    rw [List.cons_append, List.takeWhile_cons, if_pos (by simpa using hc), List.dropWhile_cons, if_pos (by simpa using hc)]
    exact ⟨by rw [i1], i2⟩

/-- the numbers of the file of a grid, after the first line -/
theorem fscanf_grid (hN : MatlabNumbers num nat) (fmt : F → Str) (v w : Nat → F) (n : Nat) (leaf leaf' : F) (dims : List Nat) (hnd : dims.length < 2^32)
    (hlt : ∀ d ∈ dims, d < 2^32) (hleaf : ReadAs num (fmt leaf) leaf') (hv : ∀ i < n, ReadAs num (fmt (v i)) (w i)) :
    fscanf num (fmt leaf ++ '\n' :: (decimal dims.length ++ (dims.flatMap (fun d => '\n' :: decimal d ++ ['\t']) ++ (List.range n).flatMap (fun i => '\n' :: fmt (v i))))) =
      leaf' :: ofNat dims.length :: (dims.map ofNat ++ (List.range n).map w) := by
  unfold fscanf
  have hcells : words ((List.range n).flatMap (fun i => '\n' :: fmt (v i))) = (List.range n).map (fun i => fmt (v i)) := by
    have := words_lines (fun i => fmt (v i)) (List.range n) (fun i hi => ⟨(hv i (List.mem_range.1 hi)).1, (hv i (List.mem_range.1 hi)).2.1⟩) (r := []) (Or.inl rfl)
    simpa [words_nil] using this
  have hst0 : Stop ((List.range n).flatMap (fun i => '\n' :: fmt (v i))) := by
    have := stop_lines (fun i => fmt (v i)) (List.range n) (r := []) (Or.inl rfl); simpa using this
  have hst : Stop (dims.flatMap (fun d => '\n' :: decimal d ++ ['\t']) ++ (List.range n).flatMap (fun i => '\n' :: fmt (v i))) := by
    cases dims with
    | nil => exact hst0
    | cons a as => exact stop_nl _
  have hdimw : ∀ r, words (dims.flatMap (fun d => '\n' :: decimal d ++ ['\t']) ++ r) = dims.map decimal ++ words r := by
    intro r
    clear hst hnd hlt
    induction dims with
    | nil => rfl
    | cons d ds ih =>
      rw [List.flatMap_cons, List.append_assoc, List.append_assoc, List.cons_append, words_space (by decide), List.singleton_append,
        words_token (word_decimal d) (stop_tab _), words_space (by decide), ih]
      rfl
  rw [words_token ⟨hleaf.1, hleaf.2.1⟩ (stop_nl _), words_space (by decide), numbers_cons num hleaf.2.2,
    words_token (word_decimal _) hst, numbers_cons num (num_decimal hN hnd), hdimw, hcells,
    numbers_append num decimal ofNat _ (fun d hd => num_decimal hN (hlt d hd))]
  congr 3
  have := numbers_append num (fun i => fmt (v i)) w (List.range n) (fun i hi => (hv i (List.mem_range.1 hi)).2.2) []
  rw [List.append_nil] at this
  rw [this]
  simp [numbers]

/-- `parseGrid` of a file written by the library -/
theorem parseGrid_file (hN : MatlabNumbers num nat) (fmt : F → Str) (v w : Nat → F) (g : Grid F) (leaf' : F) (dims : List Nat) (hshape : g.shape = Shape.mk' dims)
    (hf : Fits dims (2^32)) (hnd : dims.length < 2^32) (hleaf : ReadAs num (fmt g.leaf) leaf') (hv : ∀ i < g.size, ReadAs num (fmt (v i)) (w i)) :
    parseGrid num nat (header fmt g ++ (List.range g.size).flatMap (fun i => '\n' :: fmt (v i))) =
      some { celltype := "FMCell - Fast Marching cell".toList, leafsize := leaf', ndims := dims.length, dimsize := dims
             cells := if dims.length = 2 then transpose ⟨trim dims, fun cs => ((List.range g.size).map w).getD (linear dims cs) zero⟩
              else ⟨trim dims, fun cs => ((List.range g.size).map w).getD (linear dims cs) zero⟩ } := by
  have h1 : g.shape.ndims = dims.length := by rw [hshape]; rfl
  have h2 : g.shape.dims = dims := by rw [hshape]; rfl
  have hsz : g.size = dims.prod := by
    show g.shape.ncells = _
    rw [hshape]; exact mk'_ncells hf
  have hlt : ∀ d ∈ dims, d < 2^32 := by
    intro d hd
    exact lt_of_le_of_lt (Nat.le_of_dvd (List.prod_pos (fun x hx => hf.pos x hx)) (List.dvd_prod hd)) hf.lt
  have e : header fmt g ++ (List.range g.size).flatMap (fun i => '\n' :: fmt (v i)) = "FMCell - Fast Marching cell".toList ++ '\n' ::
      (fmt g.leaf ++ '\n' :: (decimal dims.length ++ (dims.flatMap (fun d => '\n' :: decimal d ++ ['\t']) ++ (List.range g.size).flatMap (fun i => '\n' :: fmt (v i))))) := by
    unfold header; rw [h1, h2]; simp
  obtain ⟨l1, l2⟩ := first_line (l := "FMCell - Fast Marching cell".toList) (by decide)
    (fmt g.leaf ++ '\n' :: (decimal dims.length ++ (dims.flatMap (fun d => '\n' :: decimal d ++ ['\t']) ++ (List.range g.size).flatMap (fun i => '\n' :: fmt (v i)))))
  unfold parseGrid
  rw [e, l1, l2, fscanf_grid hN fmt v w g.size g.leaf leaf' dims hnd hlt hleaf hv]
  have h2le := hf.two
  simp only [elem, List.getElem?_cons_zero, List.getElem?_cons_succ, Option.bind_eq_bind, Option.bind_some, hN.size _ hnd, one_ne_zero, if_false, Nat.sub_self,
    show (2:Nat) ≠ 0 from by decide, show 2 - 1 = 1 from rfl]
  rw [if_neg (by omega), sizes_ok nat dims _ _ _ (fun d hd => hN.size d (hlt d hd))]
  have hd : (leaf' :: ofNat dims.length :: (dims.map ofNat ++ (List.range g.size).map w)).drop (dims.length + 2) = (List.range g.size).map w := by
    simp
  rw [hd]
  simp only [Option.bind_some]
  unfold reshape
  rw [if_neg (by simp only [List.length_map, List.length_range, hsz]; omega)]
  simp only [Option.bind_some]

theorem trim_two {dims : List Nat} (h : dims.length = 2) : trim dims = dims := by
  unfold trim
  rw [List.take_of_length_le (by omega), List.drop_of_length_le (by omega)]
  simp

theorem trim_last {dims : List Nat} (h : dims.getLast? ≠ some 1) : trim dims = dims := by
  unfold trim
  rcases Nat.lt_or_ge 2 dims.length with hl | hl
  · have : (dims.drop 2).reverse.dropWhile (· = 1) = (dims.drop 2).reverse := by
      cases hr : (dims.drop 2).reverse with
      | nil => rfl
      | cons a as =>
        rw [List.dropWhile_cons, if_neg]
        intro h1
        apply h
        have h2 : (dims.drop 2).getLast? = some a := by
          rw [← List.head?_reverse, hr]; rfl
        rw [List.getLast?_drop, if_neg (by omega)] at h2
        rw [h2]; simpa using h1
    rw [this, List.reverse_reverse, List.take_append_drop]
  · rw [List.take_of_length_le (by omega), List.drop_of_length_le (by omega)]
    simp

theorem cell_get (w : Nat → F) {dims cs : List Nat} (hf : Fits dims (2^32)) (hc : InBox dims cs) {n : Nat} (hn : n = dims.prod) :
    ((List.range n).map w).getD (linear dims cs) zero = w ((Shape.mk' dims).coord2idx cs) := by
  obtain ⟨h1, h2, -⟩ := C01_coord_roundtrip dims hf cs hc
  rw [mk'_ncells hf, h2] at h1
  rw [linear_eq, h2, hn, List.getD_eq_getElem?_getD, List.getElem?_map, List.getElem?_range h1]
  rfl

/-- the facts about the cells of a parsed grid -/
theorem parsed_cells (w : Nat → F) {dims : List Nat} (hf : Fits dims (2^32)) {n : Nat} (hn : n = dims.prod) (A : Arr F)
    (hA : A = if dims.length = 2 then transpose ⟨trim dims, fun cs => ((List.range n).map w).getD (linear dims cs) zero⟩
              else ⟨trim dims, fun cs => ((List.range n).map w).getD (linear dims cs) zero⟩) :
    (dims.length = 2 → A.dims = dims.reverse) ∧ (dims.length ≠ 2 → dims.getLast? ≠ some 1 → A.dims = dims) ∧
    ∀ cs, InBox dims cs → A.get (if dims.length = 2 then cs.reverse else cs) = w ((Shape.mk' dims).coord2idx cs) := by
  subst hA
  refine ⟨fun h => ?_, fun h h1 => ?_, fun cs hc => ?_⟩
  · rw [if_pos h]; show (trim dims).reverse = _; rw [trim_two h]
  · rw [if_neg h]; exact trim_last h1
  · by_cases h : dims.length = 2
    · rw [if_pos h, if_pos h]
      show ((List.range n).map w).getD (linear dims cs.reverse.reverse) zero = _
      rw [List.reverse_reverse]; exact cell_get w hf hc hn
    · rw [if_neg h, if_neg h]; exact cell_get w hf hc hn

end Matlab

/-- **C77** (grids): `parseGrid` of the file written by `saveGridValues` has the cell type, the leaf size and the sizes of the grid, and the value of the cell with the
coordinates `cs` (as it is read back) at these coordinates (from 0 on), in reversed order for a grid with two dimensions (rows are `y`, as MATLAB shows images). -/
theorem C77_grid (num : Str → Option F) (nat : F → Option Nat) (hN : MatlabNumbers num nat) (fmt : F → Str) (rd : Nat → F) (g : Grid F) (dims : List Nat) (leaf' : F)
    (hshape : g.shape = Shape.mk' dims) (hf : Fits dims (2^32)) (hnd : dims.length < 2^32) (hleaf : ReadAs num (fmt g.leaf) leaf')
    (hv : ∀ i < g.size, ReadAs num (fmt (g.value i)) (rd i)) :
    ∃ p, parseGrid num nat (saveGridValues fmt g) = some p ∧ p.celltype = "FMCell - Fast Marching cell".toList ∧ p.leafsize = leaf' ∧ p.ndims = dims.length ∧
      p.dimsize = dims ∧ (dims.length = 2 → p.cells.dims = dims.reverse) ∧ (dims.length ≠ 2 → dims.getLast? ≠ some 1 → p.cells.dims = dims) ∧
      ∀ cs, InBox dims cs → p.cells.get (if dims.length = 2 then cs.reverse else cs) = rd (g.shape.coord2idx cs) := by
  have hsz : g.size = dims.prod := by
    show g.shape.ncells = _
    rw [hshape]; exact mk'_ncells hf
  refine ⟨_, parseGrid_file hN fmt g.value rd g leaf' dims hshape hf hnd hleaf hv, rfl, rfl, rfl, rfl, ?_⟩
  rw [hshape]
  exact parsed_cells rd hf hsz _ rfl

/-- The same for the velocities written by `saveVelocities`. -/
theorem C77_velocities (num : Str → Option F) (nat : F → Option Nat) (hN : MatlabNumbers num nat) (fmt : F → Str) (rd : Nat → F) (g : Grid F) (dims : List Nat) (leaf' : F)
    (hshape : g.shape = Shape.mk' dims) (hf : Fits dims (2^32)) (hnd : dims.length < 2^32) (hleaf : ReadAs num (fmt g.leaf) leaf')
    (hv : ∀ i < g.size, ReadAs num (fmt (g.vel i)) (rd i)) :
    ∃ p, parseGrid num nat (saveVelocities fmt g) = some p ∧ p.celltype = "FMCell - Fast Marching cell".toList ∧ p.leafsize = leaf' ∧ p.ndims = dims.length ∧
      p.dimsize = dims ∧ (dims.length = 2 → p.cells.dims = dims.reverse) ∧ (dims.length ≠ 2 → dims.getLast? ≠ some 1 → p.cells.dims = dims) ∧
      ∀ cs, InBox dims cs → p.cells.get (if dims.length = 2 then cs.reverse else cs) = rd (g.shape.coord2idx cs) := by
  have hsz : g.size = dims.prod := by
    show g.shape.ncells = _
    rw [hshape]; exact mk'_ncells hf
  refine ⟨_, parseGrid_file hN fmt g.vel rd g leaf' dims hshape hf hnd hleaf hv, rfl, rfl, rfl, rfl, ?_⟩
  rw [hshape]
  exact parsed_cells rd hf hsz _ rfl

namespace Matlab

theorem ws_nl : ∀ c ∈ ['\n'], isSpace c = true := by intro c hc; rw [List.mem_singleton.1 hc]; decide

theorem readDims_nls {ds js : List Nat} (hl : ds.length = js.length) (hlt : ∀ d ∈ ds, d < 2^32) (tail : Str) :
    readDims js ⟨'\n' :: (ds.flatMap (fun d => decimal d ++ ['\n']) ++ tail), true⟩ = (ds, ⟨'\n' :: tail, true⟩) := by
  induction ds generalizing js with
  | nil => cases js with
    | nil => rfl
    | cons => simp at hl
  | cons d ds ih =>
    cases js with
    | nil => simp at hl
    | cons j js =>
      unfold readDims
      have e : '\n' :: ((d :: ds).flatMap (fun d => decimal d ++ ['\n']) ++ tail) =
          ['\n'] ++ decimal d ++ ('\n' :: (ds.flatMap (fun d => decimal d ++ ['\n']) ++ tail)) := by simp
      rw [e, readUnsigned_token 32 d ws_nl (hlt d (by simp)) (stop_nl _)]
      have := ih (js := js) (by simpa using hl) (fun x hx => hlt x (by simp [hx]))
      simp only [List.isEmpty_cons, Bool.not_false, this]

theorem readCells_nls (conv : Str → F × Bool) (t : Nat → Str) (w : Nat → F) (is : List Nat) (hp : ∀ i ∈ is, FloatText (t i) ∧ conv (t i) = (w i, true)) (old : F)
    (g : Grid F) (obs : List Nat) :
    readCells conv is ⟨'\n' :: is.flatMap (fun i => t i ++ ['\n']), true⟩ old g obs = (withVel g is w, obs ++ is.filter (fun i => lt (w i) (margin : F))) := by
  induction is generalizing old g obs with
  | nil => simp [readCells, withVel_nil]
  | cons i is ih =>
    unfold readCells
    have e : '\n' :: (i :: is).flatMap (fun i => t i ++ ['\n']) = ['\n'] ++ t i ++ ('\n' :: is.flatMap (fun i => t i ++ ['\n'])) := by simp
    obtain ⟨h1, h2⟩ := hp i (by simp)
    rw [e, readDouble_token conv ws_nl h1 (stop_nl _), h2]
    simp only [List.isEmpty_cons, Bool.not_false, Bool.and_self]
    rw [ih (fun x hx => hp x (by simp [hx])), withVel_cons g i is w (w i) rfl, occ_setVelocity]
    by_cases hlt : lt (w i) (margin : F) = true
    · rw [if_pos hlt, List.filter_cons, if_pos hlt]; simp
    · rw [if_neg hlt, List.filter_cons, if_neg hlt]

theorem inBox_cons {d c : Nat} {ds cs : List Nat} : InBox (d :: ds) (c :: cs) ↔ c < d ∧ InBox ds cs := by
  constructor
  · rintro ⟨h1, h2⟩
    refine ⟨by simpa using h2 0 (by simp), by simpa using h1, fun k hk => ?_⟩
    have := h2 (k+1) (by simpa using hk)
    simpa using this
  · rintro ⟨h1, h2, h3⟩
    refine ⟨by simpa using h2, fun k hk => ?_⟩
    cases k with
    | zero => simpa using h1
    | succ k => simpa using h3 k (by simpa using hk)

/-- the subscripts of a linear index -/
theorem subscripts_ok (dims : List Nat) (k : Nat) (hk : k < dims.prod) : InBox dims (subscripts dims k) ∧ rowMajor dims (subscripts dims k) = k := by
  induction dims generalizing k with
  | nil => exact ⟨⟨rfl, by simp⟩, by simp at hk; simp [rowMajor, hk]⟩
  | cons d ds ih =>
    rw [List.prod_cons] at hk
    have hd : 0 < d := by
      rcases Nat.eq_zero_or_pos d with rfl | h
      · simp at hk
      · exact h
    obtain ⟨i1, i2⟩ := ih (k / d) (Nat.div_lt_of_lt_mul hk)
    refine ⟨inBox_cons.2 ⟨Nat.mod_lt _ hd, i1⟩, ?_⟩
    show k % d + d * rowMajor ds (subscripts ds (k / d)) = k
    rw [i2]; exact Nat.mod_add_div k d

theorem subscripts_inBox {dims cs : List Nat} (h : InBox dims cs) : subscripts dims (rowMajor dims cs) = cs ∧ rowMajor dims cs < dims.prod := by
  induction dims generalizing cs with
  | nil =>
    have : cs = [] := List.length_eq_zero_iff.1 h.1
    subst this; simp [subscripts, rowMajor]
  | cons d ds ih =>
    cases cs with
    | nil => simp [InBox] at h
    | cons c cs =>
      obtain ⟨h1, h2⟩ := inBox_cons.1 h
      obtain ⟨i1, i2⟩ := ih h2
      have hm : (c + d * rowMajor ds cs) % d = c := by rw [Nat.add_mul_mod_self_left, Nat.mod_eq_of_lt h1]
      have hdv : (c + d * rowMajor ds cs) / d = rowMajor ds cs := by rw [Nat.add_mul_div_left _ _ (by omega), Nat.div_eq_of_lt h1, Nat.zero_add]
      constructor
      · show (c + d * rowMajor ds cs) % d :: subscripts ds ((c + d * rowMajor ds cs) / d) = c :: cs
        rw [hm, hdv, i1]
      · show c + d * rowMajor ds cs < (d :: ds).prod
        rw [List.prod_cons]
        calc c + d * rowMajor ds cs < d + d * rowMajor ds cs := by omega
          _ = d * (rowMajor ds cs + 1) := by ring
          _ ≤ d * ds.prod := Nat.mul_le_mul_left _ i2

end Matlab

/-- **C77** (maps made with MATLAB): `loadMapFromText` of the file written by `saveGridToFile` gives a grid with the sizes of the array, in which the velocity of the
cell with the coordinates `cs` is the element with these subscripts (from 0 on), as its two decimals are read; the obstacles are the occupied cells. -/
theorem C77_save (conv : Str → F × Bool) (fmt2 : F → Str) (leaf : Str) (leaf' : F) (a : Arr F) (w : List Nat → F) (g0 : Grid F) (junk : LoadJunk F)
    (hf : Fits a.dims (2^32)) (hnd : a.dims.length < 2^64) (hleaf : FloatText leaf ∧ conv leaf = (leaf', true))
    (hw : ∀ cs, InBox a.dims cs → Prints fmt2 conv (a.get cs) (w cs)) :
    ∃ g', loadMapFromText conv a.dims.length junk (some (saveGridToFile fmt2 leaf a)) g0 = .returned 1 g' ∧ g'.leaf = leaf' ∧ g'.shape = Shape.mk' a.dims ∧
      (∀ cs, InBox a.dims cs → g'.vel (g'.shape.coord2idx cs) = w cs) ∧ (∀ i < g'.size, g'.value i = inf ∧ g'.state i = .opn) ∧
      g'.occupied = (List.range g'.size).filter g'.occ := by
  set g1 : Grid F := { g0.resize a.dims with leaf := leaf' } with hg1
  have hsz : g1.size = a.dims.prod := mk'_ncells hf
  have hlt : ∀ d ∈ a.dims, d < 2^32 := by
    intro d hd
    exact lt_of_le_of_lt (Nat.le_of_dvd (List.prod_pos (fun x hx => hf.pos x hx)) (List.dvd_prod hd)) hf.lt
  set u : Nat → F := fun i => w (subscripts a.dims i) with hu
  have hr := readCells_nls conv (fun i => fmt2 (a.get (subscripts a.dims i))) u (List.range a.dims.prod) (fun i hi => hw _ (subscripts_ok a.dims i (List.mem_range.1 hi)).1)
    junk.occ g1 []
  refine ⟨(withVel g1 (List.range a.dims.prod) u).setOccupiedCells ((List.range a.dims.prod).filter (fun i => lt (u i) (margin : F))), ?_, rfl, rfl, ?_, ?_, ?_⟩
  · unfold loadMapFromText saveGridToFile
    simp only
    rw [openAndGetline_line (by decide)]
    have h1 := readDouble_token conv (ws := []) (t := leaf) (r := '\n' :: (decimal a.dims.length ++ '\n' ::
      (a.dims.flatMap (fun d => decimal d ++ ['\n']) ++ a.column.flatMap (fun x => fmt2 x ++ ['\n'])))) (by simp) hleaf.1 (stop_nl _) junk.leaf
    rw [List.nil_append] at h1
    simp only [h1, hleaf.2, List.isEmpty_cons, Bool.not_false, Bool.and_self]
    have h2 := readUnsigned_token 64 (ws := ['\n']) (r := '\n' :: (a.dims.flatMap (fun d => decimal d ++ ['\n']) ++ a.column.flatMap (fun x => fmt2 x ++ ['\n'])))
      a.dims.length ws_nl hnd (stop_nl _) junk.nd
    rw [List.append_assoc, List.singleton_append] at h2
    simp only [h2, List.isEmpty_cons, Bool.not_false]
    rw [if_neg (by simp), readDims_nls (by simp) hlt]
    simp only [← hg1, hsz]
    have hc : a.column.flatMap (fun x => fmt2 x ++ ['\n']) = (List.range a.dims.prod).flatMap (fun i => fmt2 (a.get (subscripts a.dims i)) ++ ['\n']) := by
      unfold Arr.column; rw [List.flatMap_map]
    rw [hc, hr, List.nil_append]
  · intro cs hcs
    obtain ⟨s1, s2⟩ := subscripts_inBox hcs
    show (withVel g1 (List.range a.dims.prod) u).vel ((Shape.mk' a.dims).coord2idx cs) = _
    rw [(C01_coord_roundtrip a.dims hf cs hcs).2.1, withVel_vel _ _ _ (List.mem_range.2 s2), hu]
    simp only [s1]
  · intro i _
    refine ⟨?_, ?_⟩
    · show (withVel g1 (List.range a.dims.prod) u).value i = _
      rw [(withVel_value _ _ _ i).1]; rfl
    · show (withVel g1 (List.range a.dims.prod) u).state i = _
      rw [(withVel_value _ _ _ i).2]; rfl
  · show (List.range a.dims.prod).filter _ = (List.range g1.size).filter _
    rw [hsz]
    apply List.filter_congr
    intro i hi
    exact (withVel_occ g1 (List.range a.dims.prod) u hi).symm

/-- **C77** (there and back, three and more dimensions): a map whose velocities are written by the library, read with `parseGrid` and written with `saveGridToFile` is
loaded with the same sizes and, in every cell, the velocity (as far as the digits printed tell). -/
theorem C77_roundtrip (num : Str → Option F) (nat : F → Option Nat) (hN : MatlabNumbers num nat) (fmt fmt2 : F → Str) (conv : Str → F × Bool) (rd : Nat → F) (g g0 : Grid F)
    (junk : LoadJunk F) (dims : List Nat) (leaf'' : F) (leaf : Str) (leaf' : F) (w : Nat → F) (hshape : g.shape = Shape.mk' dims) (hf : Fits dims (2^32)) (h3 : dims.length ≠ 2)
    (hnd : dims.length < 2^32) (hlast : dims.getLast? ≠ some 1) (hleaf1 : ReadAs num (fmt g.leaf) leaf'') (hleaf : FloatText leaf ∧ conv leaf = (leaf', true))
    (hv : ∀ i < g.size, ReadAs num (fmt (g.vel i)) (rd i)) (hw : ∀ i < g.size, Prints fmt2 conv (rd i) (w i)) :
    ∃ p g', parseGrid num nat (saveVelocities fmt g) = some p ∧
      loadMapFromText conv dims.length junk (some (saveGridToFile fmt2 leaf p.cells)) g0 = .returned 1 g' ∧ g'.shape = g.shape ∧ ∀ i < g.size, g'.vel i = w i := by
  have hsz : g.size = dims.prod := by
    show g.shape.ncells = _
    rw [hshape]; exact mk'_ncells hf
  obtain ⟨p, e1, -, -, -, -, -, e2, e3⟩ := C77_velocities num nat hN fmt rd g dims leaf'' hshape hf hnd hleaf1 hv
  have e2 := e2 h3 hlast
  have key : ∀ cs, InBox dims cs → (Shape.mk' dims).coord2idx cs < g.size := fun cs hc => by
    have := (C01_coord_roundtrip dims hf cs hc).1
    rwa [mk'_ncells hf, ← hsz] at this
  obtain ⟨g', f1, -, f3, f4, -⟩ := C77_save conv fmt2 leaf leaf' p.cells (fun cs => w ((Shape.mk' dims).coord2idx cs)) g0 junk (by rw [e2]; exact hf)
    (by rw [e2]; exact lt_trans hnd (by norm_num)) hleaf (by
      rw [e2]
      intro cs hc
      have := e3 cs hc
      rw [if_neg h3, hshape] at this
      rw [this]
      exact hw _ (key cs hc))
  rw [e2] at f1 f3 f4
  refine ⟨p, g', e1, f1, by rw [f3, hshape], fun i hi => ?_⟩
  have hi' : i < (Shape.mk' dims).ncells := by rw [mk'_ncells hf, ← hsz]; exact hi
  obtain ⟨c1, c2⟩ := C01_idx_roundtrip dims hf i hi'
  have := f4 _ c1
  rw [f3, c2] at this
  exact this

/-- **C77** fails for two dimensions: a map read with `parseGrid` and written with `saveGridToFile` is loaded with the two coordinates exchanged. -/
theorem C77_refuted_2d (num : Str → Option F) (nat : F → Option Nat) (hN : MatlabNumbers num nat) (fmt fmt2 : F → Str) (conv : Str → F × Bool) (rd : Nat → F) (g g0 : Grid F)
    (junk : LoadJunk F) (nx ny : Nat) (leaf'' : F) (leaf : Str) (leaf' : F) (w : Nat → F) (hshape : g.shape = Shape.mk' [nx, ny]) (hf : Fits [nx, ny] (2^32))
    (hleaf1 : ReadAs num (fmt g.leaf) leaf'') (hleaf : FloatText leaf ∧ conv leaf = (leaf', true))
    (hv : ∀ i < g.size, ReadAs num (fmt (g.vel i)) (rd i)) (hw : ∀ i < g.size, Prints fmt2 conv (rd i) (w i)) :
    ∃ p g', parseGrid num nat (saveVelocities fmt g) = some p ∧
      loadMapFromText conv 2 junk (some (saveGridToFile fmt2 leaf p.cells)) g0 = .returned 1 g' ∧ g'.shape = Shape.mk' [ny, nx] ∧
      ∀ x y, x < nx → y < ny → g'.vel (g'.shape.coord2idx [y, x]) = w (g.shape.coord2idx [x, y]) := by
  have hsz : g.size = [nx, ny].prod := by
    show g.shape.ncells = _
    rw [hshape]; exact mk'_ncells hf
  obtain ⟨p, e1, -, -, -, -, e2, -, e3⟩ := C77_velocities num nat hN fmt rd g [nx, ny] leaf'' hshape hf (by simp) hleaf1 hv
  have e2 : p.cells.dims = [ny, nx] := e2 rfl
  have hbox : ∀ x y, InBox [nx, ny] [x, y] ↔ x < nx ∧ y < ny := fun x y => by
    rw [inBox_cons, inBox_cons]
    simp [InBox]
  have hbox' : ∀ cs, InBox [ny, nx] cs → ∃ x y, cs = [y, x] ∧ x < nx ∧ y < ny := by
    intro cs hc
    match cs, hc with
    | [y, x], hc =>
      rw [inBox_cons, inBox_cons] at hc
      exact ⟨x, y, rfl, hc.2.1, hc.1⟩
    | [], hc => simp [InBox] at hc
    | [_], hc => simp [InBox] at hc
    | _ :: _ :: _ :: _, hc => simp [InBox] at hc
  have hf' : Fits [ny, nx] (2^32) := ⟨by simp, fun x hx => hf.pos x (by simp at hx ⊢; tauto), by have := hf.lt; simp at this ⊢; rwa [Nat.mul_comm]⟩
  obtain ⟨g', f1, -, f3, f4, -⟩ := C77_save conv fmt2 leaf leaf' p.cells (fun cs => w (g.shape.coord2idx cs.reverse)) g0 junk (by rw [e2]; exact hf')
    (by rw [e2]; simp) hleaf (by
      rw [e2]
      intro cs hc
      obtain ⟨x, y, rfl, hx, hy⟩ := hbox' cs hc
      have hb := (hbox x y).2 ⟨hx, hy⟩
      have := e3 [x, y] hb
      rw [if_pos (by rfl)] at this
      show Prints fmt2 conv (p.cells.get [y, x]) (w (g.shape.coord2idx [x, y]))
      rw [show [y, x] = [x, y].reverse from rfl, this]
      refine hw _ ?_
      have h4 := (C01_coord_roundtrip [nx, ny] hf [x, y] hb).1
      rw [hshape, hsz]
      rwa [mk'_ncells hf] at h4)
  rw [e2] at f1 f3 f4
  refine ⟨p, g', e1, f1, f3, fun x y hx hy => ?_⟩
  have hb : InBox [ny, nx] [y, x] := by rw [inBox_cons, inBox_cons]; exact ⟨hy, hx, by simp [InBox]⟩
  exact f4 [y, x] hb

/-- **C77** fails for a last dimension of size 1: a map of this shape read with `parseGrid` and written with `saveGridToFile` has lost the dimension, and loading it ends
the program. -/
theorem C77_refuted_flat (num : Str → Option F) (nat : F → Option Nat) (hN : MatlabNumbers num nat) (fmt fmt2 : F → Str) (conv : Str → F × Bool) (rd : Nat → F) (g g0 : Grid F)
    (junk : LoadJunk F) (nx ny : Nat) (leaf'' : F) (leaf : Str) (leaf' : F) (hshape : g.shape = Shape.mk' [nx, ny, 1]) (hf : Fits [nx, ny, 1] (2^32))
    (hleaf1 : ReadAs num (fmt g.leaf) leaf'') (hleaf : FloatText leaf ∧ conv leaf = (leaf', true)) (hv : ∀ i < g.size, ReadAs num (fmt (g.vel i)) (rd i)) :
    ∃ p, parseGrid num nat (saveVelocities fmt g) = some p ∧ loadMapFromText conv 3 junk (some (saveGridToFile fmt2 leaf p.cells)) g0 = .exited := by
  refine ⟨_, parseGrid_file hN fmt g.vel rd g leaf'' _ hshape hf (by simp) hleaf1 hv, ?_⟩
  rw [if_neg (by simp)]
  have ht : trim [nx, ny, 1] = [nx, ny] := by simp [trim]
  simp only [ht]
  generalize hA : (⟨[nx, ny], fun cs => ((List.range g.size).map rd).getD (linear [nx, ny, 1] cs) zero⟩ : Arr F) = A
  have hAd : A.dims.length = 2 := by rw [← hA]; rfl
  unfold loadMapFromText saveGridToFile
  simp only
  rw [openAndGetline_line (by decide)]
  have h1 := readDouble_token conv (ws := []) (t := leaf) (r := '\n' :: (decimal A.dims.length ++ '\n' ::
    (A.dims.flatMap (fun d => decimal d ++ ['\n']) ++ A.column.flatMap (fun x => fmt2 x ++ ['\n'])))) (by simp) hleaf.1 (stop_nl _) junk.leaf
  rw [List.nil_append] at h1
  simp only [h1, hleaf.2, List.isEmpty_cons, Bool.not_false, Bool.and_self]
  have h2 := readUnsigned_token 64 (ws := ['\n']) (r := '\n' :: (A.dims.flatMap (fun d => decimal d ++ ['\n']) ++ A.column.flatMap (fun x => fmt2 x ++ ['\n'])))
    A.dims.length ws_nl (by rw [hAd]; norm_num) (stop_nl _) junk.nd
  rw [List.append_assoc, List.singleton_append] at h2
  simp only [h2]
  rw [if_pos (by rw [hAd]; decide)]

end FMV
