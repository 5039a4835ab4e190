import Verif.Lemmas.IO
import Verif.Model.XR
/-
C36: the text files of velocities.
-/
namespace FMV
open Console Text Arith Spec IO
variable {F : Type} [Arith F]

namespace IO

theorem intercalate_lines (l : Str) (ls : List Str) : List.intercalate ['\n'] (l :: ls) = l ++ ls.flatMap (fun x => '\n' :: x) := by
  induction ls generalizing l with
  | nil => simp [List.intercalate]
  | cons a as ih =>
    have := ih a
    simp only [List.intercalate] at this ⊢
    simp [this]

theorem decimal_noline (n : Nat) : '\n' ∉ decimal n := by
  intro h
  have := (decimal_number n).2 _ h
  simp at this

theorem openAndGetline_line {l : Str} (h : '\n' ∉ l) (r : Str) : openAndGetline (l ++ '\n' :: r) = ⟨r, true⟩ := by
  unfold openAndGetline
  have hd : (l ++ '\n' :: r).dropWhile (· ≠ '\n') = '\n' :: r := by
    induction l with
    | nil => simp
    | cons c cs ih =>
      have hc : c ≠ '\n' := fun e => h (by simp [e])
      rw [List.cons_append, List.dropWhile_cons, if_pos (by simpa using hc)]
      exact ih (fun hm => h (by simp [hm]))
  rw [if_pos (by simp), hd]
  rfl

theorem dims_stop (ds : List Nat) (tail : Str) (h : ds ≠ []) :
    Stop (ds.flatMap (fun d => '\n' :: decimal d ++ ['\t']) ++ tail) ∧ (ds.flatMap (fun d => '\n' :: decimal d ++ ['\t']) ++ tail).isEmpty = false := by
  cases ds with
  | nil => exact absurd rfl h
  | cons a as => exact ⟨Or.inr ⟨'\n', decimal a ++ ['\t'] ++ as.flatMap (fun d => '\n' :: decimal d ++ ['\t']) ++ tail, by simp, by decide⟩, rfl⟩

/-- reading the header -/
theorem load_header (fmt : F → Str) (conv : Str → F × Bool) (g g0 : Grid F) (nd : Nat) (junk : LoadJunk F) (leaf' : F) (tail : Str)
    (hdims : g.shape.dims ≠ []) (hlt : ∀ d ∈ g.shape.dims, d < 2^32) (hnd : g.shape.ndims < 2^64) (hleaf : Prints fmt conv g.leaf leaf') :
    loadMapFromText conv nd junk (some (header fmt g ++ tail)) g0 =
      if g.shape.ndims ≠ nd then .exited else
        let g1 := { g0.resize g.shape.dims with leaf := leaf' }
        let c := readCells conv (List.range g1.size) ⟨'\t' :: tail, true⟩ junk.occ g1 []
        .returned 1 (c.1.setOccupiedCells c.2) := by
  have e : header fmt g ++ tail = "FMCell - Fast Marching cell".toList ++ '\n' ::
      (fmt g.leaf ++ '\n' :: (decimal g.shape.ndims ++ (g.shape.dims.flatMap (fun d => '\n' :: decimal d ++ ['\t']) ++ tail))) := by
    unfold header; simp
  have hst := dims_stop g.shape.dims tail hdims
  unfold loadMapFromText
  simp only [e]
  rw [openAndGetline_line (by decide)]
  have h1 := readDouble_token conv (ws := []) (t := fmt g.leaf)
    (r := '\n' :: (decimal g.shape.ndims ++ (g.shape.dims.flatMap (fun d => '\n' :: decimal d ++ ['\t']) ++ tail))) (by simp) hleaf.1 (Or.inr ⟨_, _, rfl, by decide⟩) junk.leaf
  rw [List.nil_append] at h1
  simp only [h1, hleaf.2, List.isEmpty_cons, Bool.not_false, Bool.and_self]
  have h2 := readUnsigned_token 64 (ws := ['\n']) g.shape.ndims (by intro c hc; rw [List.mem_singleton.1 hc]; decide) hnd hst.1 junk.nd
  rw [List.append_assoc, List.singleton_append] at h2
  simp only [h2, hst.2, Bool.not_false]
  by_cases hn : g.shape.ndims = nd
  · rw [if_neg (by simpa using hn), if_neg (by simpa using hn)]
    have h3 := readDims_tokens (ds := g.shape.dims) (js := (List.range nd).map junk.dims) (by simp [← hn, Shape.ndims]) hlt (ws := []) (by simp) tail hdims
    rw [List.nil_append] at h3
    simp only [h3]
  · rw [if_pos (by simpa using hn), if_pos (by simpa using hn)]

theorem withVel_vel (g : Grid F) (l : List Nat) (w : Nat → F) {i : Nat} (h : i ∈ l) : (withVel g l w).vel i = w i := by
  show (if i ∈ l then { g.cells i with occupancy := w i } else g.cells i).occupancy = w i
  rw [if_pos h]

theorem withVel_occ (g : Grid F) (l : List Nat) (w : Nat → F) {i : Nat} (h : i ∈ l) : (withVel g l w).occ i = lt (w i) (margin : F) := by
  show Cell.isOccupied (if i ∈ l then { g.cells i with occupancy := w i } else g.cells i) = _
  rw [if_pos h]; rfl

theorem withVel_value (g : Grid F) (l : List Nat) (w : Nat → F) (i : Nat) : (withVel g l w).value i = g.value i ∧ (withVel g l w).state i = g.state i := by
  have : (withVel g l w).cells i = if i ∈ l then { g.cells i with occupancy := w i } else g.cells i := rfl
  by_cases h : i ∈ l <;> simp [Grid.value, Grid.state, this, h]

end IO

/-- **C36**: the file written by `saveVelocities` consists of these lines. -/
theorem C36_format (fmt : F → Str) (g : Grid F) (hleaf : '\n' ∉ fmt g.leaf) (hvel : ∀ i < g.size, '\n' ∉ fmt (g.vel i)) :
    IsLines (["FMCell - Fast Marching cell".toList, fmt g.leaf, decimal g.shape.ndims] ++ g.shape.dims.map (fun d => decimal d ++ ['\t']) ++
      (List.range g.size).map (fun i => fmt (g.vel i))) (saveVelocities fmt g) := by
  constructor
  · intro l hl
    simp only [List.mem_append, List.mem_cons, List.not_mem_nil, or_false, List.mem_map, List.mem_range] at hl
    rcases hl with ((rfl | rfl | rfl) | ⟨d, _, rfl⟩) | ⟨i, hi, rfl⟩
    · decide
    · exact hleaf
    · exact decimal_noline _
    · intro h
      rcases List.mem_append.1 h with h | h
      · exact decimal_noline _ h
      · simp at h
    · exact hvel i hi
  · rw [List.cons_append, List.cons_append, intercalate_lines]
    unfold saveVelocities header
    simp [List.flatMap_append, List.flatMap_map]

/-- The file written by `saveGridValues` consists of these lines: the same header, then the arrival times. -/
theorem C36_values_format (fmt : F → Str) (g : Grid F) (hleaf : '\n' ∉ fmt g.leaf) (hval : ∀ i < g.size, '\n' ∉ fmt (g.value i)) :
    IsLines (["FMCell - Fast Marching cell".toList, fmt g.leaf, decimal g.shape.ndims] ++ g.shape.dims.map (fun d => decimal d ++ ['\t']) ++
      (List.range g.size).map (fun i => fmt (g.value i))) (saveGridValues fmt g) := by
  constructor
  · intro l hl
    simp only [List.mem_append, List.mem_cons, List.not_mem_nil, or_false, List.mem_map, List.mem_range] at hl
    rcases hl with ((rfl | rfl | rfl) | ⟨d, _, rfl⟩) | ⟨i, hi, rfl⟩
    · decide
    · exact hleaf
    · exact decimal_noline _
    · intro h
      rcases List.mem_append.1 h with h | h
      · exact decimal_noline _ h
      · simp at h
    · exact hval i hi
  · rw [List.cons_append, List.cons_append, intercalate_lines]
    unfold saveGridValues header
    simp [List.flatMap_append, List.flatMap_map]

/-- The file written by `savePath` consists of these lines: leaf size, number of dimensions, the dimension sizes, then one line per point with each coordinate followed by a tab. -/
theorem C36_path_format (fmt : F → Str) (g : Grid F) (path : List (List F)) (hfmt : ∀ v, '\n' ∉ fmt v) :
    IsLines ([fmt g.leaf, decimal g.shape.ndims] ++ g.shape.dims.map (fun d => decimal d ++ ['\t']) ++
      path.map (fun p => p.flatMap (fun x => fmt x ++ ['\t']))) (savePath fmt g path) := by
  constructor
  · intro l hl
    simp only [List.mem_append, List.mem_cons, List.not_mem_nil, or_false, List.mem_map] at hl
    rcases hl with ((rfl | rfl) | ⟨d, _, rfl⟩) | ⟨p, _, rfl⟩
    · exact hfmt _
    · exact decimal_noline _
    · intro h
      rcases List.mem_append.1 h with h | h
      · exact decimal_noline _ h
      · simp at h
    · intro h
      obtain ⟨x, _, hx⟩ := List.mem_flatMap.1 h
      rcases List.mem_append.1 hx with h | h
      · exact hfmt _ h
      · simp at h
  · rw [List.cons_append, List.cons_append, intercalate_lines]
    unfold savePath
    simp [List.flatMap_append, List.flatMap_map]

/-- The file written by `savePathVelocity`: each point is followed by its velocity, and the dimension sizes have no tab. -/
theorem C36_pathVelocity_format (fmt : F → Str) (g : Grid F) (path : List (List F × F)) (hfmt : ∀ v, '\n' ∉ fmt v) :
    IsLines ([fmt g.leaf, decimal g.shape.ndims] ++ g.shape.dims.map decimal ++
      path.map (fun p => p.1.flatMap (fun x => fmt x ++ ['\t']) ++ fmt p.2)) (savePathVelocity fmt g path) := by
  constructor
  · intro l hl
    simp only [List.mem_append, List.mem_cons, List.not_mem_nil, or_false, List.mem_map] at hl
    rcases hl with ((rfl | rfl) | ⟨d, _, rfl⟩) | ⟨p, _, rfl⟩
    · exact hfmt _
    · exact decimal_noline _
    · exact decimal_noline _
    · intro h
      rcases List.mem_append.1 h with h | h
      · obtain ⟨x, _, hx⟩ := List.mem_flatMap.1 h
        rcases List.mem_append.1 hx with h | h
        · exact hfmt _ h
        · simp at h
      · exact hfmt _ h
  · rw [List.cons_append, List.cons_append, intercalate_lines]
    unfold savePathVelocity
    simp [List.flatMap_append, List.flatMap_map]

/-- **C36**: loading a file written by `saveVelocities` succeeds and restores the leaf size, the dimension sizes and every velocity as printed; all cells are fresh otherwise, and
the obstacle list is exactly the list of occupied cells in order.  For every grid shape and content, whatever the grid was before and the uninitialised variables contain. -/
theorem C36_roundtrip (fmt : F → Str) (conv : Str → F × Bool) (g g0 : Grid F) (junk : LoadJunk F) (leaf' : F) (w : Nat → F)
    (hshape : g.shape = Shape.mk' g.shape.dims) (hdims : g.shape.dims ≠ []) (hlt : ∀ d ∈ g.shape.dims, d < 2^32) (hnd : g.shape.ndims < 2^64)
    (hleaf : Prints fmt conv g.leaf leaf') (hvel : ∀ i < g.size, Prints fmt conv (g.vel i) (w i)) :
    ∃ g', loadMapFromText conv g.shape.ndims junk (some (saveVelocities fmt g)) g0 = .returned 1 g' ∧
      g'.leaf = leaf' ∧ g'.shape = g.shape ∧ (∀ i < g.size, g'.vel i = w i ∧ g'.value i = inf ∧ g'.state i = .opn) ∧
      g'.occupied = (List.range g.size).filter g'.occ := by
  set g1 : Grid F := { g0.resize g.shape.dims with leaf := leaf' } with hg1
  have hsz : g1.size = g.size := by
    show (Shape.mk' g.shape.dims).ncells = g.shape.ncells
    rw [← hshape]
  obtain ⟨u, hu, -, hr⟩ := readCells_tokens conv fmt g.vel w (List.range g.size) [] (by simpa using hvel) (by simp) (ws := ['\t'])
    (by intro c hc; rw [List.mem_singleton.1 hc]; decide) junk.occ g1 []
  rw [List.append_nil, List.nil_append] at hr
  refine ⟨(withVel g1 (List.range g.size) u).setOccupiedCells ((List.range g.size).filter (fun i => lt (u i) (margin : F))), ?_, rfl, hshape.symm, ?_, ?_⟩
  · unfold saveVelocities
    rw [load_header fmt conv g g0 _ junk leaf' _ hdims hlt hnd hleaf, if_neg (by simp)]
    simp only [← hg1, hsz]
    rw [show '\t' :: (List.range g.size).flatMap (fun i => '\n' :: fmt (g.vel i)) = ['\t'] ++ (List.range g.size).flatMap (fun i => '\n' :: fmt (g.vel i)) from rfl, hr]
  · intro i hi
    have hm : i ∈ List.range g.size := List.mem_range.2 hi
    refine ⟨?_, ?_, ?_⟩
    · show (withVel g1 (List.range g.size) u).vel i = _
      rw [withVel_vel _ _ _ hm, hu i hm]
    · show (withVel g1 (List.range g.size) u).value i = _
      rw [(withVel_value _ _ _ i).1]; rfl
    · show (withVel g1 (List.range g.size) u).state i = _
      rw [(withVel_value _ _ _ i).2]; rfl
  · show (List.range g.size).filter _ = _
    apply List.filter_congr
    intro i hi
    exact (withVel_occ g1 (List.range g.size) u hi).symm

/-- **C36**: saving what was loaded gives the same file, if numbers printed once are printed again the same way. -/
theorem C36_save_again (fmt : F → Str) (conv : Str → F × Bool) (g g0 g' : Grid F) (junk : LoadJunk F) (leaf' : F) (w : Nat → F)
    (hshape : g.shape = Shape.mk' g.shape.dims) (hdims : g.shape.dims ≠ []) (hlt : ∀ d ∈ g.shape.dims, d < 2^32) (hnd : g.shape.ndims < 2^64)
    (hleaf : Prints fmt conv g.leaf leaf') (hvel : ∀ i < g.size, Prints fmt conv (g.vel i) (w i)) (hl2 : fmt leaf' = fmt g.leaf)
    (hv2 : ∀ i < g.size, fmt (w i) = fmt (g.vel i)) (h : loadMapFromText conv g.shape.ndims junk (some (saveVelocities fmt g)) g0 = .returned 1 g') :
    saveVelocities fmt g' = saveVelocities fmt g := by
  obtain ⟨g2, h2, h3, h4, h5, -⟩ := C36_roundtrip fmt conv g g0 junk leaf' w hshape hdims hlt hnd hleaf hvel
  rw [h2] at h
  obtain ⟨-, rfl⟩ := LoadOut.returned.inj h
  unfold saveVelocities header
  have hs : g2.size = g.size := by unfold Grid.size; rw [h4]
  rw [h3, h4, hs, hl2]
  congr 1
  apply List.flatMap_congr
  intro i hi
  rw [(h5 i (List.mem_range.1 hi)).1, hv2 i (List.mem_range.1 hi)]

/-- **C36**: if printing keeps the free cells free and the occupied ones occupied, the obstacle list of the loaded grid is that of the saved cells. -/
theorem C36_obstacles (fmt : F → Str) (conv : Str → F × Bool) (g g0 g' : Grid F) (junk : LoadJunk F) (leaf' : F) (w : Nat → F)
    (hshape : g.shape = Shape.mk' g.shape.dims) (hdims : g.shape.dims ≠ []) (hlt : ∀ d ∈ g.shape.dims, d < 2^32) (hnd : g.shape.ndims < 2^64)
    (hleaf : Prints fmt conv g.leaf leaf') (hvel : ∀ i < g.size, Prints fmt conv (g.vel i) (w i))
    (hocc : ∀ i < g.size, lt (w i) (margin : F) = g.occ i) (h : loadMapFromText conv g.shape.ndims junk (some (saveVelocities fmt g)) g0 = .returned 1 g') :
    g'.occupied = (List.range g.size).filter g.occ := by
  obtain ⟨g2, h2, -, -, h5, h6⟩ := C36_roundtrip fmt conv g g0 junk leaf' w hshape hdims hlt hnd hleaf hvel
  rw [h2] at h
  obtain ⟨-, rfl⟩ := LoadOut.returned.inj h
  rw [h6]
  apply List.filter_congr
  intro i hi
  have := (h5 i (List.mem_range.1 hi)).1
  rw [← hocc i (List.mem_range.1 hi), ← this]
  rfl

/-- A file that cannot be opened: 0 is returned and the grid is not touched. -/
theorem C36_missing (conv : Str → F × Bool) (nd : Nat) (junk : LoadJunk F) (g : Grid F) : loadMapFromText conv nd junk none g = .returned 0 g := rfl

/-- A file of a grid with another number of dimensions ends the program. -/
theorem C36_wrong_dimension (fmt : F → Str) (conv : Str → F × Bool) (g g0 : Grid F) (nd : Nat) (junk : LoadJunk F) (leaf' : F)
    (hdims : g.shape.dims ≠ []) (hlt : ∀ d ∈ g.shape.dims, d < 2^32) (hnd : g.shape.ndims < 2^64) (hleaf : Prints fmt conv g.leaf leaf') (hne : g.shape.ndims ≠ nd) :
    loadMapFromText conv nd junk (some (saveVelocities fmt g)) g0 = .exited := by
  unfold saveVelocities
  rw [load_header fmt conv g g0 nd junk leaf' _ hdims hlt hnd hleaf, if_pos hne]

/-- A file cut off after `m` cells is accepted, and the missing cells get the last velocity that was read. -/
theorem C36_truncated (fmt : F → Str) (conv : Str → F × Bool) (g g0 : Grid F) (junk : LoadJunk F) (leaf' : F) (w : Nat → F) (m : Nat) (hm : 0 < m) (hmg : m ≤ g.size)
    (hshape : g.shape = Shape.mk' g.shape.dims) (hdims : g.shape.dims ≠ []) (hlt : ∀ d ∈ g.shape.dims, d < 2^32) (hnd : g.shape.ndims < 2^64)
    (hleaf : Prints fmt conv g.leaf leaf') (hvel : ∀ i < m, Prints fmt conv (g.vel i) (w i)) :
    ∃ g', loadMapFromText conv g.shape.ndims junk (some (header fmt g ++ (List.range m).flatMap (fun i => '\n' :: fmt (g.vel i)))) g0 = .returned 1 g' ∧
      (∀ i < m, g'.vel i = w i) ∧ ∀ i, m ≤ i → i < g.size → g'.vel i = w (m - 1) := by
  set g1 : Grid F := { g0.resize g.shape.dims with leaf := leaf' } with hg1
  have hsz : g1.size = g.size := by
    show (Shape.mk' g.shape.dims).ncells = g.shape.ncells
    rw [← hshape]
  have hrange : List.range g.size = List.range m ++ (List.range (g.size - m)).map (m + ·) := by
    rw [← List.range_add]; congr 1; omega
  obtain ⟨u, hu1, hu2, hr⟩ := readCells_tokens conv fmt g.vel w (List.range m) ((List.range (g.size - m)).map (m + ·)) (by simpa using hvel)
    (by intro i hi hj; simp only [List.mem_map, List.mem_range] at hi hj; obtain ⟨a, _, rfl⟩ := hj; omega) (ws := ['\t'])
    (by intro c hc; rw [List.mem_singleton.1 hc]; decide) junk.occ g1 []
  refine ⟨(withVel g1 (List.range g.size) u).setOccupiedCells ((List.range g.size).filter (fun i => lt (u i) (margin : F))), ?_, ?_, ?_⟩
  · rw [load_header fmt conv g g0 _ junk leaf' _ hdims hlt hnd hleaf, if_neg (by simp)]
    simp only [← hg1, hsz]
    rw [← hrange] at hr
    rw [show '\t' :: (List.range m).flatMap (fun i => '\n' :: fmt (g.vel i)) = ['\t'] ++ (List.range m).flatMap (fun i => '\n' :: fmt (g.vel i)) from rfl, hr]
    rfl
  · intro i hi
    show (withVel g1 (List.range g.size) u).vel i = _
    rw [withVel_vel _ _ _ (List.mem_range.2 (by omega)), hu1 i (List.mem_range.2 hi)]
  · intro i h1 h2
    show (withVel g1 (List.range g.size) u).vel i = _
    rw [withVel_vel _ _ _ (List.mem_range.2 h2), hu2 i (by simp; exact ⟨i - m, by omega, by omega⟩)]
    obtain ⟨k, rfl⟩ : ∃ k, m = k + 1 := ⟨m - 1, by omega⟩
    simp [List.range_succ]

/-- Infinite velocities are written by `saveVelocities` as `inf`, which the loader cannot read: from the first such cell on, every cell is loaded with velocity 0. -/
theorem C36_refuted_inf (fmt : F → Str) (conv : Str → F × Bool) (hconv : conv [] = (zero, false)) (g g0 : Grid F) (junk : LoadJunk F) (leaf' : F) (w : Nat → F) (m : Nat)
    (hmg : m < g.size) (hshape : g.shape = Shape.mk' g.shape.dims) (hdims : g.shape.dims ≠ []) (hlt : ∀ d ∈ g.shape.dims, d < 2^32) (hnd : g.shape.ndims < 2^64)
    (hleaf : Prints fmt conv g.leaf leaf') (hvel : ∀ i < m, Prints fmt conv (g.vel i) (w i)) (hinf : fmt (g.vel m) = "inf".toList) :
    ∃ g', loadMapFromText conv g.shape.ndims junk (some (saveVelocities fmt g)) g0 = .returned 1 g' ∧
      (∀ i < m, g'.vel i = w i) ∧ (∀ i, m ≤ i → i < g.size → g'.vel i = zero) ∧
      (lt zero (margin : F) = true → ∀ i, m ≤ i → i < g.size → i ∈ g'.occupied) := by
  set g1 : Grid F := { g0.resize g.shape.dims with leaf := leaf' } with hg1
  have hsz : g1.size = g.size := by
    show (Shape.mk' g.shape.dims).ncells = g.shape.ncells
    rw [← hshape]
  have hrange : List.range g.size = List.range m ++ (List.range (g.size - m)).map (m + ·) := by
    rw [← List.range_add]; congr 1; omega
  obtain ⟨k, hk⟩ : ∃ k, g.size - m = k + 1 := ⟨g.size - m - 1, by omega⟩
  set w' : Nat → F := fun i => if i < m then w i else zero with hw'
  set r : Str := "nf".toList ++ ((List.range k).map (fun x => m + (x + 1))).flatMap (fun i => '\n' :: fmt (g.vel i)) with hr'
  have htext : (List.range g.size).flatMap (fun i => '\n' :: fmt (g.vel i)) = (List.range m).flatMap (fun i => '\n' :: fmt (g.vel i)) ++ '\n' :: 'i' :: r := by
    rw [hrange, hk, List.range_succ_eq_map, List.flatMap_append]
    simp [hinf, hr', List.flatMap_map]
  have hr := readCells_inf conv hconv fmt g.vel w' (List.range m) ((List.range (g.size - m)).map (m + ·))
    (by intro i hi; have := List.mem_range.1 hi; rw [hw']; simpa [this] using hvel i this)
    (by intro j hj; simp only [List.mem_map] at hj; obtain ⟨a, _, rfl⟩ := hj; rw [hw']; simp) (ws := ['\t'])
    (by intro c hc; rw [List.mem_singleton.1 hc]; decide) r junk.occ g1 [] (by rw [hk, List.range_succ_eq_map]; simp)
  rw [← hrange, List.append_assoc, ← htext, List.nil_append] at hr
  refine ⟨(withVel g1 (List.range g.size) w').setOccupiedCells ((List.range g.size).filter (fun i => lt (w' i) (margin : F))), ?_, ?_, ?_, ?_⟩
  · unfold saveVelocities
    rw [load_header fmt conv g g0 _ junk leaf' _ hdims hlt hnd hleaf, if_neg (by simp)]
    simp only [← hg1, hsz]
    rw [show '\t' :: (List.range g.size).flatMap (fun i => '\n' :: fmt (g.vel i)) = ['\t'] ++ (List.range g.size).flatMap (fun i => '\n' :: fmt (g.vel i)) from rfl, hr]
  · intro i hi
    show (withVel g1 (List.range g.size) w').vel i = _
    rw [withVel_vel _ _ _ (List.mem_range.2 (by omega)), hw']
    simp [hi]
  · intro i h1 h2
    show (withVel g1 (List.range g.size) w').vel i = _
    rw [withVel_vel _ _ _ (List.mem_range.2 h2), hw']
    simp [show ¬ i < m by omega]
  · intro h0 i h1 h2
    show i ∈ (List.range g.size).filter (fun i => lt (w' i) (margin : F))
    rw [List.mem_filter]
    refine ⟨List.mem_range.2 h2, ?_⟩
    rw [hw']
    simp [show ¬ i < m by omega, h0]

/-! ### A concrete case -/
namespace IO
open XR

/-- printing of a few numbers, for the examples -/
noncomputable def exFmt (v : XR) : Str := by
  classical exact if v = pinf then "inf".toList else if v = fin 1 then "1".toList else if v = fin (1/4) then "2.5e-01".toList else "0".toList

/-- reading of a few numbers, for the examples -/
noncomputable def exConv (s : Str) : XR × Bool :=
  if s = "1".toList then (fin 1, true) else if s = "2.5e-01".toList then (fin (1/4), true) else if s = "0".toList then (fin 0, true) else (fin 0, false)

theorem exPrints_one : Prints exFmt exConv (fin 1) (fin 1) := by
  have : exFmt (fin 1) = "1".toList := by unfold exFmt; simp
  refine ⟨?_, by rw [this]; unfold exConv; simp⟩
  rw [this]
  exact ⟨[], "1".toList, [], [], by simp, Or.inl rfl, ⟨by simp, by decide⟩, Or.inl rfl, Or.inl rfl⟩

theorem exPrints_quarter : Prints exFmt exConv (fin (1/4)) (fin (1/4)) := by
  have : exFmt (fin (1/4)) = "2.5e-01".toList := by unfold exFmt; simp
  refine ⟨?_, by rw [this]; unfold exConv; simp⟩
  rw [this]
  exact ⟨[], "2".toList, ".5".toList, "e-01".toList, by decide, Or.inl rfl, ⟨by simp, by decide⟩, Or.inr ⟨"5".toList, rfl, by unfold Digits; decide⟩,
    Or.inr ⟨'-', "01".toList, rfl, Or.inr rfl, ⟨by simp, by decide⟩⟩⟩

theorem exPrints_zero : Prints exFmt exConv (fin 0) (fin 0) := by
  have : exFmt (fin 0) = "0".toList := by unfold exFmt; simp
  refine ⟨?_, by rw [this]; unfold exConv; simp⟩
  rw [this]
  exact ⟨[], "0".toList, [], [], by simp, Or.inl rfl, ⟨by simp, by decide⟩, Or.inl rfl, Or.inl rfl⟩

/-- a grid of two by two cells with velocities 1, 1/4, `v`, 0 -/
noncomputable def exGrid (v : XR) : Grid XR := (((Grid.create [2,2] (fin 1) (0,0)).setVelocity 1 (fin (1/4))).setVelocity 2 v).setVelocity 3 (fin 0)

/-- the hypotheses of `C36_roundtrip`, `C36_truncated` and `C36_obstacles` are met -/
example : ∃ g', loadMapFromText exConv 2 ⟨fin 7, 0, fun _ => 0, fin 7⟩ (some (saveVelocities exFmt (exGrid (fin 1)))) (Grid.create [5,5] (fin 9) (0,0)) = .returned 1 g' ∧
    g'.vel 1 = fin (1/4) ∧ g'.vel 2 = fin 1 ∧ g'.vel 3 = fin 0 ∧ g'.leaf = fin 1 ∧ g'.shape.dims = [2,2] := by
  obtain ⟨g', h1, h2, h3, h4, -⟩ := C36_roundtrip exFmt exConv (exGrid (fin 1)) (Grid.create [5,5] (fin 9) (0,0)) ⟨fin 7, 0, fun _ => 0, fin 7⟩ (fin 1)
    (exGrid (fin 1)).vel rfl (by decide) (by decide) (by decide) exPrints_one (by
      intro i hi
      have hi' : i < 4 := hi
      interval_cases i
      · exact exPrints_one
      · exact exPrints_quarter
      · exact exPrints_one
      · exact exPrints_zero)
  exact ⟨g', h1, (h4 1 (by decide)).1, (h4 2 (by decide)).1, (h4 3 (by decide)).1, h2, by rw [h3]; rfl⟩

/-- the hypotheses of `C36_refuted_inf` are met: the fast cell 2 and the cell after it become obstacles -/
example : ∃ g', loadMapFromText exConv 2 ⟨fin 7, 0, fun _ => 0, fin 7⟩ (some (saveVelocities exFmt (exGrid pinf))) (Grid.create [5,5] (fin 9) (0,0)) = .returned 1 g' ∧
    g'.vel 1 = fin (1/4) ∧ g'.vel 2 = fin 0 := by
  obtain ⟨g', h1, h2, h3, -⟩ := C36_refuted_inf exFmt exConv (by unfold exConv; simp; rfl) (exGrid pinf) (Grid.create [5,5] (fin 9) (0,0)) ⟨fin 7, 0, fun _ => 0, fin 7⟩ (fin 1)
    (exGrid pinf).vel 2 (by decide) rfl (by decide) (by decide) (by decide) exPrints_one (by
      intro i hi
      interval_cases i
      · exact exPrints_one
      · exact exPrints_quarter) (by show exFmt pinf = _; unfold exFmt; simp)
  exact ⟨g', h1, h2 1 (by decide), h3 2 (by decide) (by decide)⟩

end IO
end FMV
