import Verif.Props.IO
/-
C36: a negative number in the header of a text map is not an error.
-/
namespace FMV
open Console Text Arith Spec IO
variable {F : Type} [Arith F]
namespace IO

theorem readUnsigned_negative (b : Nat) {ws r : Str} (n : Nat) (hws : ∀ c ∈ ws, isSpace c = true) (h0 : 0 < n) (hn : n < 2^b) (hr : Stop r) (old : Nat) :
    readUnsigned b ⟨ws ++ '-' :: decimal n ++ r, true⟩ old = (2^b - n, ⟨r, !r.isEmpty⟩) := by
  obtain ⟨hd0, hd1⟩ := decimal_number n
  have hv : digitsVal (decimal n) = n := read_decimal n
  unfold readUnsigned
  have hdw : (ws ++ '-' :: decimal n ++ r).dropWhile isSpace = '-' :: (decimal n ++ r) := by
    rw [List.append_assoc, dropWhile_ws hws, List.cons_append, List.dropWhile_cons, if_neg (by decide)]
  obtain ⟨ht, hdr⟩ := takeWhile_digits (s := decimal n) (r := r) hd1 hr
  simp only [Bool.not_true, Bool.false_eq_true, if_false, hdw]
  rw [if_pos (Or.inr trivial), ht, hdr, if_neg hd0, hv, if_neg (by omega)]
  simp only [if_true, Nat.mod_eq_of_lt (show 2 ^ b - n < 2 ^ b by omega)]

theorem readCells_frame (conv : Str → F × Bool) : ∀ (is : List Nat) (s : Strm) (old : F) (g : Grid F) (obs : List Nat),
    (readCells conv is s old g obs).1.shape = g.shape ∧ (readCells conv is s old g obs).1.leaf = g.leaf
  | [], _, _, _, _ => ⟨rfl, rfl⟩
  | i :: is, s, old, g, obs => by
    unfold readCells
    obtain ⟨h1, h2⟩ := readCells_frame conv is (readDouble conv s old).2 (readDouble conv s old).1 (g.setVelocity i (readDouble conv s old).1)
      (if (g.setVelocity i (readDouble conv s old).1).occ i then obs ++ [i] else obs)
    exact ⟨h1, h2⟩

/-- **C36**, finding: the loader accepts negative sizes.  A map file whose first dimension is given as `-n` is loaded, without any error, as a grid with `2^32 - n` cells in that
dimension (all the other sizes as written). -/
theorem _root_.FMV.C36_refuted_negative_size (fmt : F → Str) (conv : Str → F × Bool) (leaf leaf' : F) (n : Nat) (h0 : 0 < n) (hn : n < 2^32) (ds : List Nat)
    (hds : ds ≠ []) (hlt : ∀ d ∈ ds, d < 2^32) (hlen : ds.length + 1 < 2^64) (hleaf : Prints fmt conv leaf leaf') (title tail : Str) (ht : '\n' ∉ title) (g0 : Grid F) (junk : LoadJunk F) :
    ∃ g', loadMapFromText conv (ds.length + 1) junk (some (title ++ '\n' :: fmt leaf ++ '\n' :: decimal (ds.length + 1) ++ '\n' :: '-' :: decimal n ++ '\t' ::
        ds.flatMap (fun d => '\n' :: decimal d ++ ['\t']) ++ tail)) g0 = .returned 1 g' ∧
      g'.shape = Shape.mk' ((2^32 - n) :: ds) ∧ g'.leaf = leaf' := by
  set dtext := ds.flatMap (fun d => '\n' :: decimal d ++ ['\t']) ++ tail with hdt
  have e : title ++ '\n' :: fmt leaf ++ '\n' :: decimal (ds.length + 1) ++ '\n' :: '-' :: decimal n ++ '\t' :: ds.flatMap (fun d => '\n' :: decimal d ++ ['\t']) ++ tail =
      title ++ '\n' :: (fmt leaf ++ '\n' :: (decimal (ds.length + 1) ++ '\n' :: '-' :: (decimal n ++ '\t' :: dtext))) := by
    simp [hdt]
  unfold loadMapFromText
  simp only [e]
  rw [openAndGetline_line ht]
  have h1 := readDouble_token conv (ws := []) (t := fmt leaf) (r := '\n' :: (decimal (ds.length + 1) ++ '\n' :: '-' :: (decimal n ++ '\t' :: dtext))) (by simp) hleaf.1
    (Or.inr ⟨_, _, rfl, by decide⟩) junk.leaf
  rw [List.nil_append] at h1
  simp only [h1, hleaf.2, List.isEmpty_cons, Bool.not_false, Bool.and_self]
  have h2 := readUnsigned_token 64 (ws := ['\n']) (ds.length + 1) (by intro c hc; rw [List.mem_singleton.1 hc]; decide) hlen
    (r := '\n' :: '-' :: (decimal n ++ '\t' :: dtext)) (Or.inr ⟨_, _, rfl, by decide⟩) junk.nd
  rw [List.append_assoc, List.singleton_append] at h2
  simp only [h2, List.isEmpty_cons, Bool.not_false]
  rw [if_neg (by simp)]
  have hj : (List.range (ds.length + 1)).map junk.dims = junk.dims 0 :: (List.range ds.length).map (fun i => junk.dims (i + 1)) := by
    rw [List.range_succ_eq_map]; simp
  rw [hj]
  unfold readDims
  have h3 := readUnsigned_negative 32 (ws := ['\n']) n (by intro c hc; rw [List.mem_singleton.1 hc]; decide) h0 hn (r := '\t' :: dtext) (Or.inr ⟨_, _, rfl, by decide⟩) (junk.dims 0)
  rw [List.append_assoc, List.singleton_append, List.cons_append] at h3
  simp only [h3, List.isEmpty_cons, Bool.not_false]
  have h4 := readDims_tokens (ds := ds) (js := (List.range ds.length).map (fun i => junk.dims (i + 1))) (by simp) hlt (ws := ['\t'])
    (by intro c hc; rw [List.mem_singleton.1 hc]; decide) tail hds
  rw [List.append_assoc, List.singleton_append, ← hdt] at h4
  simp only [h4]
  refine ⟨_, rfl, ?_, ?_⟩
  · exact (readCells_frame _ _ _ _ _ _).1
  · exact (readCells_frame _ _ _ _ _ _).2

/-- a concrete file: the sizes `-2` and `3` give a grid of `4294967294 x 3` cells -/
example (g0 : Grid XR) (junk : LoadJunk XR) :
    ∃ g', loadMapFromText exConv 2 junk (some ("t\n1\n2\n-2\t\n3\t".toList)) g0 = .returned 1 g' ∧ g'.shape = Shape.mk' [4294967294, 3] := by
  obtain ⟨g', h1, h2, -⟩ := C36_refuted_negative_size exFmt exConv (XR.fin 1) (XR.fin 1) 2 (by decide) (by decide) [3] (by decide) (by decide) (by decide) exPrints_one ['t'] []
    (by decide) g0 junk
  refine ⟨g', ?_, h2⟩
  have e : exFmt (XR.fin 1) = "1".toList := by unfold exFmt; simp
  rw [e] at h1
  have e2 : ['t'] ++ '\n' :: "1".toList ++ '\n' :: decimal ([3].length + 1) ++ '\n' :: '-' :: decimal 2 ++ '\t' :: [3].flatMap (fun d => '\n' :: decimal d ++ ['\t']) ++ [] =
      "t\n1\n2\n-2\t\n3\t".toList := by
    have d2 : decimal 2 = ['2'] := by unfold decimal; decide
    have d3 : decimal 3 = ['3'] := by unfold decimal; decide
    show ['t'] ++ '\n' :: "1".toList ++ '\n' :: decimal 2 ++ '\n' :: '-' :: decimal 2 ++ '\t' :: ('\n' :: decimal 3 ++ ['\t'] ++ []) ++ [] = _
    rw [d2, d3]
    decide
  rw [e2] at h1
  exact h1

theorem readUnsigned_large (b : Nat) {ws r : Str} (n : Nat) (hws : ∀ c ∈ ws, isSpace c = true) (hn : 2^b ≤ n) (hr : Stop r) (old : Nat) :
    readUnsigned b ⟨ws ++ decimal n ++ r, true⟩ old = (2^b - 1, ⟨r, false⟩) := by
  obtain ⟨hd0, hd1⟩ := decimal_number n
  have hv : digitsVal (decimal n) = n := read_decimal n
  obtain ⟨c, cs, hcs⟩ := List.exists_cons_of_ne_nil hd0
  have hc : isDigit c = true := isDigit_iff.2 (hd1 c (by rw [hcs]; simp))
  have hsp : isSpace c = false := by
    by_contra hcon
    have := digit_not_space hc
    simp_all
  have hsg : ¬ (c = '+' ∨ c = '-') := by
    rintro (rfl | rfl) <;> revert hc <;> decide
  unfold readUnsigned
  have hdw : (ws ++ decimal n ++ r).dropWhile isSpace = c :: (cs ++ r) := by
    rw [List.append_assoc, dropWhile_ws hws, hcs, List.cons_append, List.dropWhile_cons, if_neg (by rw [hsp]; decide)]
  obtain ⟨ht, hdr⟩ := takeWhile_digits (s := decimal n) (r := r) hd1 hr
  rw [hcs, List.cons_append] at ht hdr
  simp only [Bool.not_true, Bool.false_eq_true, if_false, hdw]
  rw [if_neg hsg, ht, hdr, if_neg (by simp), ← hcs, hv, if_pos hn]

/-- once the stream has failed, the sizes keep what was in the array -/
theorem readDims_failed (js : List Nat) (r : Str) : readDims js ⟨r, false⟩ = (js, ⟨r, false⟩) := by
  induction js with
  | nil => rfl
  | cons j js ih =>
    unfold readDims
    have : readUnsigned 32 ⟨r, false⟩ j = (j, ⟨r, false⟩) := by unfold readUnsigned; simp
    simp only [this, ih]

/-- **C36**, finding: a size that does not fit in 32 bits is no error either.  It is loaded as `2^32 - 1`, and the sizes after it are whatever was in the uninitialised array. -/
theorem _root_.FMV.C36_refuted_large_size (fmt : F → Str) (conv : Str → F × Bool) (leaf leaf' : F) (n : Nat) (hn : 2^32 ≤ n) (k : Nat) (hlen : k + 1 < 2^64)
    (hleaf : Prints fmt conv leaf leaf') (title tail : Str) (ht : '\n' ∉ title) (g0 : Grid F) (junk : LoadJunk F) :
    ∃ g', loadMapFromText conv (k + 1) junk (some (title ++ '\n' :: fmt leaf ++ '\n' :: decimal (k + 1) ++ '\n' :: decimal n ++ '\t' :: tail)) g0 = .returned 1 g' ∧
      g'.shape = Shape.mk' ((2^32 - 1) :: (List.range k).map (fun i => junk.dims (i + 1))) ∧ g'.leaf = leaf' := by
  have e : title ++ '\n' :: fmt leaf ++ '\n' :: decimal (k + 1) ++ '\n' :: decimal n ++ '\t' :: tail =
      title ++ '\n' :: (fmt leaf ++ '\n' :: (decimal (k + 1) ++ '\n' :: (decimal n ++ '\t' :: tail))) := by
    simp
  unfold loadMapFromText
  simp only [e]
  rw [openAndGetline_line ht]
  have h1 := readDouble_token conv (ws := []) (t := fmt leaf) (r := '\n' :: (decimal (k + 1) ++ '\n' :: (decimal n ++ '\t' :: tail))) (by simp) hleaf.1
    (Or.inr ⟨_, _, rfl, by decide⟩) junk.leaf
  rw [List.nil_append] at h1
  simp only [h1, hleaf.2, List.isEmpty_cons, Bool.not_false, Bool.and_self]
  have h2 := readUnsigned_token 64 (ws := ['\n']) (k + 1) (by intro c hc; rw [List.mem_singleton.1 hc]; decide) hlen
    (r := '\n' :: (decimal n ++ '\t' :: tail)) (Or.inr ⟨_, _, rfl, by decide⟩) junk.nd
  rw [List.append_assoc, List.singleton_append] at h2
  simp only [h2, List.isEmpty_cons, Bool.not_false]
  rw [if_neg (by simp)]
  have hj : (List.range (k + 1)).map junk.dims = junk.dims 0 :: (List.range k).map (fun i => junk.dims (i + 1)) := by
    rw [List.range_succ_eq_map]; simp
  rw [hj]
  unfold readDims
  have h3 := readUnsigned_large 32 (ws := ['\n']) n (by intro c hc; rw [List.mem_singleton.1 hc]; decide) hn (r := '\t' :: tail) (Or.inr ⟨_, _, rfl, by decide⟩) (junk.dims 0)
  rw [List.append_assoc, List.singleton_append] at h3
  simp only [h3, readDims_failed]
  refine ⟨_, rfl, ?_, ?_⟩
  · exact (readCells_frame _ _ _ _ _ _).1
  · exact (readCells_frame _ _ _ _ _ _).2

end IO
end FMV
