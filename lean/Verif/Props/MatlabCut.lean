import Verif.Props.MatlabLog
/-
C77: a path with a coordinate that MATLAB does not read as a number is cut there without an error.
-/
namespace FMV
open Console Text Arith Spec FMV.IO Matlab
variable {F : Type} [Arith F]

namespace Matlab

theorem wordsFrom_space {c : Char} (h : isSpace c = true) (A B : Str) (cur : Str) : wordsFrom cur (A ++ c :: B) = wordsFrom cur A ++ words B := by
  induction A generalizing cur with
  | nil =>
    show (if isSpace c then (if cur = [] then wordsFrom [] B else cur :: wordsFrom [] B) else wordsFrom (cur ++ [c]) B) = (if cur = [] then [] else [cur]) ++ words B
    rw [if_pos h]
    by_cases hc : cur = []
    · rw [if_pos hc, if_pos hc]; rfl
    · rw [if_neg hc, if_neg hc]; rfl
  | cons a as ih =>
    rw [List.cons_append, wordsFrom, wordsFrom]
    by_cases ha : isSpace a = true
    · rw [if_pos ha, if_pos ha]
      by_cases hc : cur = []
      · rw [if_pos hc, if_pos hc, ih]
      · rw [if_neg hc, if_neg hc, ih]; rfl
    · rw [if_neg ha, if_neg ha, ih]

theorem numbers_stop (num : Str → Option F) (l r : List Str) {t : Str} (h : num t = none) : numbers num (l ++ t :: r) = numbers num l := by
  induction l with
  | nil => rw [List.nil_append]; show (match num t with | some x => x :: numbers num r | none => []) = []; rw [h]
  | cons a as ih =>
    rw [List.cons_append, numbers, numbers]
    cases num a with
    | none => rfl
    | some x => simp only [ih]

theorem savePath_append (fmt : F → Str) (g : Grid F) (p q : List (List F)) :
    savePath fmt g (p ++ q) = savePath fmt g p ++ q.flatMap (fun p => '\n' :: p.flatMap (fun x => fmt x ++ ['\t'])) := by
  unfold savePath; rw [List.flatMap_append, ← List.append_assoc]

end Matlab

/-- **C77** (unreadable coordinates): if the first coordinate of a point of the path is written as a text that MATLAB does not read as a number, `parsepath` gives,
without an error, exactly the points before it; whatever comes after it is lost. -/
theorem C77_path_cut (num : Str → Option F) (nat : F → Option Nat) (hN : MatlabNumbers num nat) (fmt : F → Str) (rd : F → F) (g : Grid F) (dims : List Nat)
    (path : List (List F)) (y : F) (ys : List F) (later : List (List F)) (leaf' : F) (hshape : g.shape = Shape.mk' dims) (hdims : dims ≠ []) (hnd : dims.length < 2^32)
    (hlt : ∀ d ∈ dims, d < 2^32) (hleaf : ReadAs num (fmt g.leaf) leaf') (hp : ∀ p ∈ path, p.length = dims.length ∧ ∀ x ∈ p, ReadAs num (fmt x) (rd x))
    (hy : fmt y ≠ [] ∧ ∀ c ∈ fmt y, isSpace c = false) (hnone : num (fmt y) = none) :
    ∃ M, parsepath num nat (savePath fmt g (path ++ (y :: ys) :: later)) = some M ∧ M.rows = path.length ∧ M.cols = dims.length ∧
      ∀ k p j x, path[k]? = some p → p[j]? = some x → M.get k j = add (rd x) (ofNat 1) := by
  obtain ⟨M, h1, h2⟩ := C77_path num nat hN fmt rd g dims path leaf' hshape hdims hnd hlt hleaf hp
  refine ⟨M, ?_, h2⟩
  rw [← h1]
  have e : fscanf num (savePath fmt g (path ++ (y :: ys) :: later)) = fscanf num (savePath fmt g path) := by
    unfold fscanf
    rw [savePath_append, List.flatMap_cons, List.cons_append]
    unfold words
    rw [wordsFrom_space (by decide), List.flatMap_cons, List.append_assoc, List.append_assoc, words_token hy (by exact stop_tab _), numbers_stop num _ _ hnone]
  unfold parsepath
  rw [e]

/-- The hypotheses can be met: a path of three points in a 3 x 2 grid whose second point has an x that is not a number; one point is read. -/
example : ∃ M, parsepath exNum exNat (savePath Matlab.exFmt (Grid.create [3,2] (ofNat 1) (0, 0) : Grid XR) [[ofNat 0, ofNat 1], [XR.nan, ofNat 1], [ofNat 2, ofNat 1]]) = some M ∧
    M.rows = 1 := by
  have r0 := exRead 0 (by norm_num)
  have r1 := exRead 1 (by norm_num)
  have hf : Matlab.exFmt XR.nan = "nan".toList := by
    unfold Matlab.exFmt
    rw [dif_neg]
    rintro ⟨n, h⟩
    rw [ofNat_eq] at h
    cases h
  obtain ⟨M, h1, h2, -⟩ := C77_path_cut exNum exNat exNumbers Matlab.exFmt id (Grid.create [3,2] (ofNat 1) (0, 0) : Grid XR) [3,2] [[ofNat 0, ofNat 1]] XR.nan [ofNat 1]
    [[ofNat 2, ofNat 1]] (ofNat 1) rfl (by simp) (by simp) (by simp) r1 (by
      intro p hp
      simp only [List.mem_cons, List.not_mem_nil, or_false] at hp
      subst hp
      refine ⟨rfl, fun x hx => ?_⟩
      simp only [List.mem_cons, List.not_mem_nil, or_false] at hx
      rcases hx with rfl | rfl
      exacts [r0, r1]) (by rw [hf]; decide) (by
      rw [hf]; unfold exNum; rw [if_neg]; decide)
  exact ⟨M, h1, h2⟩

end FMV
