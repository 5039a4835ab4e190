import Verif.Props.CutLog
import Verif.Props.MatlabMore
/-
C119: the file of a grid whose writing was interrupted, read by parseGrid.m.

`saveGridValues` and `saveVelocities` (io/gridwriter.hpp:46-97) write the header and then one line for every cell; if the program is stopped meanwhile, the file has a beginning
of this text.
-/
namespace FMV
open Console Text Arith Spec FMV.IO Matlab Shape
variable {F : Type} [Arith F]

namespace Matlab
variable {num : Str → Option F} {nat : F → Option Nat}

/-- the numbers of a file with the header of a grid and any text after it -/
theorem fscanf_tail (hN : MatlabNumbers num nat) (fmt : F → Str) (leaf leaf' : F) (dims : List Nat) (hnd : dims.length < 2^32)
    (hlt : ∀ d ∈ dims, d < 2^32) (hleaf : ReadAs num (fmt leaf) leaf') (tail : Str) (ht : Stop tail) :
    fscanf num (fmt leaf ++ '\n' :: (decimal dims.length ++ (dims.flatMap (fun d => '\n' :: decimal d ++ ['\t']) ++ tail))) =
      leaf' :: ofNat dims.length :: (dims.map ofNat ++ numbers num (words tail)) := by
  unfold fscanf
  have hst : Stop (dims.flatMap (fun d => '\n' :: decimal d ++ ['\t']) ++ tail) := by
    cases dims with
    | nil => exact ht
    | cons a as => exact stop_nl _
  have hdimw : ∀ r, words (dims.flatMap (fun d => '\n' :: decimal d ++ ['\t']) ++ r) = dims.map decimal ++ words r := by
    intro r
    clear hst hnd hlt
    induction dims with
    | nil => rfl
    | cons d ds ih =>
      rw [List.flatMap_cons, List.append_assoc, List.append_assoc, List.cons_append, words_space (by decide), List.singleton_append,
        words_token (word_decimal d) (stop_tab _), words_space (by decide), ih]
      rfl
  rw [words_token ⟨hleaf.1, hleaf.2.1⟩ (stop_nl _), words_space (by decide), numbers_cons num hleaf.2.2,
    words_token (word_decimal _) hst, numbers_cons num (num_decimal hN hnd), hdimw,
    numbers_append num decimal ofNat _ (fun d hd => num_decimal hN (hlt d hd))]

/-- what parseGrid.m makes of a file with the header of a grid and any text after it -/
theorem parseGrid_tail (hN : MatlabNumbers num nat) (fmt : F → Str) (g : Grid F) (leaf' : F) (dims : List Nat) (hshape : g.shape = Shape.mk' dims)
    (hf : Fits dims (2^32)) (hnd : dims.length < 2^32) (hleaf : ReadAs num (fmt g.leaf) leaf') (tail : Str) (ht : Stop tail) :
    parseGrid num nat (header fmt g ++ tail) =
      if (numbers num (words tail)).length ≠ dims.prod then none else
      some { celltype := "FMCell - Fast Marching cell".toList, leafsize := leaf', ndims := dims.length, dimsize := dims
             cells := if dims.length = 2 then transpose ⟨trim dims, fun cs => (numbers num (words tail)).getD (linear dims cs) zero⟩
              else ⟨trim dims, fun cs => (numbers num (words tail)).getD (linear dims cs) zero⟩ } := by
  have h1 : g.shape.ndims = dims.length := by rw [hshape]; rfl
  have h2 : g.shape.dims = dims := by rw [hshape]; rfl
  have hlt : ∀ d ∈ dims, d < 2^32 := by
    intro d hd
    exact lt_of_le_of_lt (Nat.le_of_dvd (List.prod_pos (fun x hx => hf.pos x hx)) (List.dvd_prod hd)) hf.lt
  have e : header fmt g ++ tail = "FMCell - Fast Marching cell".toList ++ '\n' ::
      (fmt g.leaf ++ '\n' :: (decimal dims.length ++ (dims.flatMap (fun d => '\n' :: decimal d ++ ['\t']) ++ tail))) := by
    unfold header; rw [h1, h2]; simp
  obtain ⟨l1, l2⟩ := first_line (l := "FMCell - Fast Marching cell".toList) (by decide)
    (fmt g.leaf ++ '\n' :: (decimal dims.length ++ (dims.flatMap (fun d => '\n' :: decimal d ++ ['\t']) ++ tail)))
  unfold parseGrid
  rw [e, l1, l2, fscanf_tail hN fmt g.leaf leaf' dims hnd hlt hleaf tail ht]
  have h2le := hf.two
  simp only [elem, List.getElem?_cons_zero, List.getElem?_cons_succ, Option.bind_eq_bind, Option.bind_some, hN.size _ hnd, one_ne_zero, if_false, Nat.sub_self,
    show (2:Nat) ≠ 0 from by decide, show 2 - 1 = 1 from rfl]
  rw [if_neg (by omega), sizes_ok nat dims _ _ _ (fun d hd => hN.size d (hlt d hd))]
  have hd : (leaf' :: ofNat dims.length :: (dims.map ofNat ++ numbers num (words tail))).drop (dims.length + 2) = numbers num (words tail) := by
    simp
  rw [hd]
  simp only [Option.bind_some]
  unfold reshape
  by_cases hl : (numbers num (words tail)).length ≠ dims.prod
  · rw [if_pos (Or.inr hl), if_pos hl]; rfl
  · rw [if_neg (by omega), if_neg hl]
    simp only [Option.bind_some]

/-- the numbers of a beginning of the lines of the cells: those of the complete lines, then at most one more -/
theorem numbers_cut (fmt : F → Str) (v w : Nat → F) (N : Nat) (hv : ∀ i < N, ReadAs num (fmt (v i)) (w i)) (r : Str)
    (hr : r <+: (List.range N).flatMap (fun i => '\n' :: fmt (v i))) :
    Stop r ∧ ∃ m last, m ≤ N ∧ ((List.range m).flatMap (fun i => '\n' :: fmt (v i))).length ≤ r.length ∧ numbers num (words r) = (List.range m).map w ++ last ∧ (last = [] ∨ (m < N ∧ (∃ x, last = [x]) ∧
      ((List.range m).flatMap (fun i => '\n' :: fmt (v i))).length + 1 < r.length)) := by
  obtain ⟨m, u, rfl, hc⟩ := prefix_flat _ N r hr
  have hm : m ≤ N := by rcases hc with ⟨h, -⟩ | ⟨h, -⟩ <;> omega
  have hu : u = [] ∨ ∃ t, u = '\n' :: t := by
    rcases hc with ⟨-, h⟩ | ⟨-, h, hne⟩
    · exact .inl h
    · cases u with
      | nil => exact .inl rfl
      | cons c t => exact .inr ⟨t, by rw [(List.cons_prefix_cons.1 h).1]⟩
  have hstu : u = [] ∨ ∃ t, u = '\n' :: t := hu
  have hst : Stop ((List.range m).flatMap (fun i => '\n' :: fmt (v i)) ++ u) := by
    cases m with
    | zero => rcases hu with rfl | ⟨t, rfl⟩
              · exact Or.inl rfl
              · exact stop_nl _
    | succ k => rw [List.range_succ_eq_map, List.flatMap_cons, List.append_assoc]; exact stop_nl _
  refine ⟨hst, m, numbers num (words u), hm, by rw [List.length_append]; omega, ?_, ?_⟩
  · have hsu : Stop u := by
      rcases hu with rfl | ⟨t, rfl⟩
      · exact Or.inl rfl
      · exact stop_nl _
    rw [words_lines (fun i => fmt (v i)) (List.range m) (fun i hi => ⟨(hv i (by have := List.mem_range.1 hi; omega)).1, (hv i (by have := List.mem_range.1 hi; omega)).2.1⟩) hsu]
    exact numbers_append num (fun i => fmt (v i)) w (List.range m) (fun i hi => (hv i (by have := List.mem_range.1 hi; omega)).2.2) _
  · rcases hc with ⟨-, rfl⟩ | ⟨hlt, h, -⟩
    · left; rw [words_nil]; rfl
    · rcases hu with rfl | ⟨t, rfl⟩
      · left; rw [words_nil]; rfl
      · have ht := (List.cons_prefix_cons.1 h).2
        have hs := prefix_spaceless ht (hv m hlt).2.1
        rw [words_space (by decide)]
        by_cases he : t = []
        · left; rw [he, words_nil]; rfl
        · have hw := words_token (t := t) (r := []) ⟨he, hs⟩ (Or.inl rfl)
          rw [List.append_nil, words_nil] at hw
          rw [hw]
          cases hx : num t with
          | none => left; show (match num t with | some x => x :: numbers num [] | none => []) = []; rw [hx]
          | some x =>
            right
            refine ⟨hlt, ⟨x, numbers_cons num hx []⟩, ?_⟩
            rw [List.length_append, List.length_cons]
            have := List.length_pos_iff.2 he
            omega

/-- the beginnings of a positive number -/
theorem prefix_decimal {d : Nat} (hd : 0 < d) {q : Str} (h : q <+: decimal d) (hq : q ≠ []) : ∃ d', 0 < d' ∧ d' ≤ d ∧ q = decimal d' := by
  induction d using Nat.strong_induction_on with
  | _ d ih =>
    by_cases hlt : d < 10
    · rw [decimal_lt hlt] at h
      cases q with
      | nil => exact absurd rfl hq
      | cons c t =>
        obtain ⟨rfl, ht⟩ := List.cons_prefix_cons.1 h
        rw [List.prefix_nil.1 ht]
        exact ⟨d, hd, le_refl _, (decimal_lt hlt).symm⟩
    · rw [decimal_ge hlt] at h
      rcases prefix_append_cases h with h | ⟨r, rfl, h'⟩
      · obtain ⟨d', a, b, c⟩ := ih (d / 10) (by omega) (by omega) h
        exact ⟨d', a, by omega, c⟩
      · cases r with
        | nil =>
          rw [List.append_nil]
          exact ⟨d / 10, by omega, by omega, rfl⟩
        | cons c t =>
          obtain ⟨rfl, ht⟩ := List.cons_prefix_cons.1 h'
          rw [List.prefix_nil.1 ht]
          exact ⟨d, hd, le_refl _, (decimal_ge hlt).symm⟩

theorem words_word {t : Str} (hs : ∀ c ∈ t, isSpace c = false) (he : t ≠ []) : words t = [t] := by
  have hw := words_token (t := t) (r := []) ⟨he, hs⟩ (Or.inl rfl)
  rwa [List.append_nil, words_nil] at hw

/-- the numbers of a beginning of the lines of the sizes -/
theorem numbers_dims (hN : MatlabNumbers num nat) (dims : List Nat) (hpos : ∀ d ∈ dims, 0 < d) (hlt : ∀ d ∈ dims, d < 2^32) (t : Str)
    (ht : t <+: dims.flatMap (fun d => '\n' :: decimal d ++ ['\t'])) :
    Stop t ∧ ∃ ds : List Nat, numbers num (words t) = ds.map ofNat ∧ ds.length ≤ dims.length ∧ (∀ d ∈ ds, 0 < d) ∧ ∀ d ∈ ds, d < 2^32 := by
  induction dims generalizing t with
  | nil =>
    rw [List.prefix_nil.1 ht, words_nil]
    exact ⟨Or.inl rfl, [], rfl, le_refl _, by simp, by simp⟩
  | cons d ds ih =>
    rw [List.flatMap_cons, List.append_assoc, List.cons_append] at ht
    cases t with
    | nil => rw [words_nil]; exact ⟨Or.inl rfl, [], rfl, Nat.zero_le _, by simp, by simp⟩
    | cons c u =>
      obtain ⟨rfl, hu⟩ := List.cons_prefix_cons.1 ht
      refine ⟨stop_nl _, ?_⟩
      rw [words_space (by decide)]
      rcases prefix_append_cases hu with h | ⟨r, rfl, h⟩
      · by_cases he : u = []
        · rw [he, words_nil]; exact ⟨[], rfl, Nat.zero_le _, by simp, by simp⟩
        · obtain ⟨d', a, b, rfl⟩ := prefix_decimal (hpos d (by simp)) h he
          have hd' : d' < 2^32 := lt_of_le_of_lt b (hlt d (by simp))
          rw [words_word (word_decimal d').2 he, numbers_cons num (num_decimal hN hd')]
          exact ⟨[d'], rfl, by simp, by simpa using a, by simpa using hd'⟩
      · have hd := hlt d (by simp)
        cases r with
        | nil =>
          rw [List.append_nil, words_word (word_decimal d).2 (word_decimal d).1, numbers_cons num (num_decimal hN hd)]
          exact ⟨[d], rfl, by simp, by simpa using hpos d (by simp), by simpa using hd⟩
        | cons c r =>
          rw [List.singleton_append] at h
          obtain ⟨rfl, hr⟩ := List.cons_prefix_cons.1 h
          obtain ⟨-, ds', e, h1, h2, h3⟩ := ih (fun d hd => hpos d (by simp [hd])) (fun d hd => hlt d (by simp [hd])) r hr
          rw [words_token (word_decimal d) (stop_tab _), words_space (by decide), numbers_cons num (num_decimal hN hd), e]
          refine ⟨d :: ds', rfl, by simpa using h1, ?_, ?_⟩
          · intro x hx; rcases List.mem_cons.1 hx with rfl | hx
            · exact hpos x (by simp)
            · exact h2 x hx
          · intro x hx; rcases List.mem_cons.1 hx with rfl | hx
            · exact hd
            · exact h3 x hx

omit [Arith F] in
theorem numbers_length (num : Str → Option F) (l : List Str) : (numbers num l).length ≤ l.length := by
  induction l with
  | nil => exact le_refl _
  | cons a as ih =>
    rw [numbers]
    cases num a with
    | none => simp
    | some x => simp only [List.length_cons]; omega

/-- `parseGrid` needs more numbers than the number of dimensions says -/
theorem parseGrid_short (file : Str) (h : (fscanf num ((file.dropWhile (· ≠ '\n')).drop 1)).length ≤ 2) : parseGrid num nat file = none := by
  unfold parseGrid
  generalize fscanf num ((file.dropWhile (· ≠ '\n')).drop 1) = data at h
  simp only [Option.bind_eq_bind]
  cases elem data 1 with
  | none => rfl
  | some l =>
    simp only [Option.bind_some]
    cases (elem data 2).bind nat with
    | none => rfl
    | some nd =>
      simp only [Option.bind_some]
      split
      · rfl
      · rename_i hnd
        obtain ⟨k, rfl⟩ := Nat.exists_eq_succ_of_ne_zero hnd
        have : sizes nat data (k + 1) = none := by
          unfold sizes
          rw [List.range_succ_eq_map, List.mapM_cons]
          have : elem data (0 + 1 + 2) = none := by unfold elem; rw [if_neg (by omega)]; exact List.getElem?_eq_none (by omega)
          rw [this]; rfl
        rw [this]; rfl

theorem mapM_none {α β : Type} (f : α → Option β) (l : List α) (a : α) (ha : a ∈ l) (h : f a = none) : l.mapM f = none := by
  induction l with
  | nil => cases ha
  | cons b l ih =>
    rw [List.mapM_cons]
    rcases List.mem_cons.1 ha with rfl | ha
    · rw [h]; rfl
    · rw [ih ha]
      cases f b <;> rfl

omit [Arith F] in
theorem sizes_short (nat : F → Option Nat) (data : List F) (nd : Nat) (h0 : 0 < nd) (h : data.length < nd + 2) : sizes nat data nd = none := by
  refine mapM_none _ _ (nd - 1) (List.mem_range.2 (by omega)) ?_
  have : elem data (nd - 1 + 1 + 2) = none := by unfold elem; rw [if_neg (by omega)]; exact List.getElem?_eq_none (by omega)
  rw [this]; rfl

theorem drop_line {l : Str} (h : '\n' ∉ l) : l.dropWhile (· ≠ '\n') = [] := by
  induction l with
  | nil => rfl
  | cons c cs ih =>
    have hc : c ≠ '\n' := fun e => h (by simp [e])
    rw [List.dropWhile_cons, if_pos (by simpa using hc)]
    exact ih (fun hm => h (by simp [hm]))

/-- a beginning of the file that ends inside the header is an error -/
theorem parseGrid_head (hN : MatlabNumbers num nat) (fmt : F → Str) (g : Grid F) (leaf' : F) (dims : List Nat) (hshape : g.shape = Shape.mk' dims)
    (hf : Fits dims (2^32)) (hnd : dims.length < 2^32) (hleaf : ReadAs num (fmt g.leaf) leaf') (q : Str) (hq : q <+: header fmt g) : parseGrid num nat q = none := by
  have h1 : g.shape.ndims = dims.length := by rw [hshape]; rfl
  have h2 : g.shape.dims = dims := by rw [hshape]; rfl
  have hlt : ∀ d ∈ dims, d < 2^32 := by
    intro d hd
    exact lt_of_le_of_lt (Nat.le_of_dvd (List.prod_pos (fun x hx => hf.pos x hx)) (List.dvd_prod hd)) hf.lt
  have e : header fmt g = "FMCell - Fast Marching cell".toList ++ '\n' ::
      (fmt g.leaf ++ '\n' :: (decimal dims.length ++ dims.flatMap (fun d => '\n' :: decimal d ++ ['\t']))) := by
    unfold header; rw [h1, h2]; simp
  rw [e] at hq
  have hnl : '\n' ∉ "FMCell - Fast Marching cell".toList := by decide
  generalize "FMCell - Fast Marching cell".toList = l at hq hnl
  rcases prefix_append_cases hq with h | ⟨r, rfl, h⟩
  · apply parseGrid_short
    have : q.dropWhile (· ≠ '\n') = [] := drop_line (fun hc => hnl (h.subset hc))
    rw [this]; simp [fscanf, words_nil, numbers]
  · cases r with
    | nil =>
      apply parseGrid_short
      have : (l ++ []).dropWhile (· ≠ '\n') = [] := drop_line (by rwa [List.append_nil])
      rw [this]; simp [fscanf, words_nil, numbers]
    | cons c r =>
      obtain ⟨rfl, hr⟩ := List.cons_prefix_cons.1 h
      obtain ⟨l1, l2⟩ := first_line hnl r
      rcases prefix_append_cases hr with k1 | ⟨s, rfl, k2⟩
      · apply parseGrid_short
        rw [l2]
        refine le_trans (numbers_length _ _) ?_
        by_cases he : r = []
        · rw [he, words_nil]; simp
        · rw [words_word (prefix_spaceless k1 hleaf.2.1) he]; simp
      · cases s with
        | nil =>
          apply parseGrid_short
          rw [l2]
          refine le_trans (numbers_length _ _) ?_
          rw [List.append_nil, words_word hleaf.2.1 hleaf.1]; simp
        | cons c s =>
          obtain ⟨rfl, hs⟩ := List.cons_prefix_cons.1 k2
          rcases prefix_append_cases hs with k3 | ⟨t, rfl, k4⟩
          · apply parseGrid_short
            rw [l2]
            refine le_trans (numbers_length _ _) ?_
            rw [words_token ⟨hleaf.1, hleaf.2.1⟩ (stop_nl _), words_space (by decide)]
            by_cases he : s = []
            · rw [he, words_nil]; simp
            · rw [words_word (prefix_spaceless k3 (word_decimal _).2) he]; simp
          · obtain ⟨hst, ds, e1, e2, e3, e4⟩ := numbers_dims hN dims hf.pos hlt t k4
            unfold parseGrid
            have hdata : fscanf num (fmt g.leaf ++ '\n' :: (decimal dims.length ++ t)) = leaf' :: ofNat dims.length :: ds.map ofNat := by
              unfold fscanf
              rw [words_token ⟨hleaf.1, hleaf.2.1⟩ (stop_nl _), words_space (by decide), numbers_cons num hleaf.2.2,
                words_token (word_decimal _) hst, numbers_cons num (num_decimal hN hnd), e1]
            rw [l2, hdata]
            have h2le := hf.two
            simp only [elem, List.getElem?_cons_zero, List.getElem?_cons_succ, Option.bind_eq_bind, Option.bind_some, hN.size _ hnd, one_ne_zero, if_false, Nat.sub_self,
              show (2:Nat) ≠ 0 from by decide, show 2 - 1 = 1 from rfl]
            rw [if_neg (by omega)]
            rcases Nat.lt_or_ge ds.length dims.length with hl | hl
            · rw [sizes_short nat _ _ (by omega) (by simpa using hl)]; rfl
            · have hl' : dims.length = ds.length := by omega
              have := sizes_ok nat ds leaf' (ofNat dims.length) [] (fun d hd => hN.size d (e4 d hd))
              rw [List.append_nil] at this
              rw [hl'] at this ⊢
              rw [this]
              simp only [Option.bind_some]
              have hd : (leaf' :: ofNat ds.length :: ds.map ofNat : List F).drop (ds.length + 2) = [] := by simp
              rw [hd]
              unfold reshape
              have hp : 0 < ds.prod := List.prod_pos (fun x hx => e3 x hx)
              rw [if_pos (Or.inr (by simp; omega))]
              rfl

/-- `parseGrid` of a beginning of the file of a grid -/
theorem parseGrid_cut (hN : MatlabNumbers num nat) (fmt : F → Str) (v w : Nat → F) (g : Grid F) (dims : List Nat) (leaf' : F)
    (hshape : g.shape = Shape.mk' dims) (hf : Fits dims (2^32)) (hnd : dims.length < 2^32) (hleaf : ReadAs num (fmt g.leaf) leaf')
    (hv : ∀ i < g.size, ReadAs num (fmt (v i)) (w i)) (q : Str) (hq : q <+: header fmt g ++ (List.range g.size).flatMap (fun i => '\n' :: fmt (v i))) :
    (parseGrid num nat q = none ∨ ∃ p, parseGrid num nat q = some p ∧ p.celltype = "FMCell - Fast Marching cell".toList ∧ p.leafsize = leaf' ∧ p.ndims = dims.length ∧
      p.dimsize = dims ∧ (dims.length = 2 → p.cells.dims = dims.reverse) ∧ (dims.length ≠ 2 → dims.getLast? ≠ some 1 → p.cells.dims = dims) ∧
      ∀ cs, InBox dims cs → g.shape.coord2idx cs + 1 < g.size → p.cells.get (if dims.length = 2 then cs.reverse else cs) = w (g.shape.coord2idx cs)) ∧
    (q.length ≤ (header fmt g ++ (List.range (g.size - 1)).flatMap (fun i => '\n' :: fmt (v i))).length + 1 → parseGrid num nat q = none) := by
  have hsz : g.size = dims.prod := by
    show g.shape.ncells = _
    rw [hshape]; exact mk'_ncells hf
  have hpos : 0 < dims.prod := List.prod_pos (fun x hx => hf.pos x hx)
  rcases prefix_append_cases hq with hh | ⟨r, rfl, -⟩
  · have := parseGrid_head hN fmt g leaf' dims hshape hf hnd hleaf q hh
    exact ⟨.inl this, fun _ => this⟩
  obtain ⟨hst, m, last, hm, hlen0, hnum, hlast⟩ := numbers_cut (num := num) fmt v w g.size hv r ((List.prefix_append_right_inj _).1 hq)
  rw [parseGrid_tail hN fmt g leaf' dims hshape hf hnd hleaf r hst, hnum]
  by_cases hl : ((List.range m).map w ++ last).length ≠ dims.prod
  · rw [if_pos hl]; exact ⟨.inl rfl, fun _ => rfl⟩
  · rw [if_neg hl]
    rw [not_not, List.length_append, List.length_map, List.length_range] at hl
    have hw : ∃ w' : Nat → F, (List.range m).map w ++ last = (List.range g.size).map w' ∧ ∀ i, i + 1 < g.size → w' i = w i := by
      rcases hlast with rfl | ⟨hlt, ⟨x, rfl⟩, -⟩
      · refine ⟨w, ?_, fun _ _ => rfl⟩
        rw [List.append_nil, show g.size = m by rw [hsz, ← hl]; rfl]
      · refine ⟨fun i => if i = m then x else w i, ?_, fun i hi => if_neg (by rw [hsz, ← hl] at hi; simp at hi; omega)⟩
        rw [show g.size = m + 1 by rw [hsz, ← hl]; rfl, List.range_succ, List.map_append]
        congr 1
        · exact List.map_congr_left (fun i hi => (if_neg (by have := List.mem_range.1 hi; omega)).symm)
        · simp
    obtain ⟨w', e, hw'⟩ := hw
    refine ⟨.inr ⟨_, rfl, rfl, rfl, rfl, rfl, ?_⟩, fun hlen => ?_⟩
    · rw [e]
      obtain ⟨a1, a2, a3⟩ := parsed_cells w' hf hsz _ rfl
      refine ⟨a1, a2, fun cs hc hi => ?_⟩
      rw [a3 cs hc, ← hshape]
      exact hw' _ hi
    · exfalso
      rcases hlast with rfl | ⟨hlt, ⟨x, rfl⟩, h3⟩
      · have hm' : m = g.size := by rw [hsz, ← hl]; rfl
        have hk : g.size = (g.size - 1) + 1 := by omega
        have hne := List.length_pos_iff.2 (hv (g.size - 1) (by omega)).1
        rw [hm', hk, List.range_succ, List.flatMap_append, List.flatMap_singleton, List.length_append, List.length_cons] at hlen0
        rw [List.length_append, List.length_append] at hlen
        omega
      · have hm' : g.size - 1 = m := by rw [hsz, ← hl]; rfl
        rw [hm', List.length_append, List.length_append] at hlen
        omega

end Matlab

/-- **C119**, with the gap that the last number may be wrong: let a file have a beginning of what `saveGridValues` writes.
`parseGrid` either fails, or it gives the leaf size and the sizes of the grid, and in every cell but the last one the value of the grid (as it is read back).  It fails if nothing of the last number has been written. -/
theorem C119_cut_values_partial (num : Str → Option F) (nat : F → Option Nat) (hN : MatlabNumbers num nat) (fmt : F → Str) (rd : Nat → F) (g : Grid F) (dims : List Nat) (leaf' : F)
    (hshape : g.shape = Shape.mk' dims) (hf : Fits dims (2^32)) (hnd : dims.length < 2^32) (hleaf : ReadAs num (fmt g.leaf) leaf')
    (hv : ∀ i < g.size, ReadAs num (fmt (g.value i)) (rd i)) (q : Str) (hq : q <+: saveGridValues fmt g) :
    (parseGrid num nat q = none ∨ ∃ p, parseGrid num nat q = some p ∧ p.celltype = "FMCell - Fast Marching cell".toList ∧ p.leafsize = leaf' ∧ p.ndims = dims.length ∧
      p.dimsize = dims ∧ (dims.length = 2 → p.cells.dims = dims.reverse) ∧ (dims.length ≠ 2 → dims.getLast? ≠ some 1 → p.cells.dims = dims) ∧
      ∀ cs, InBox dims cs → g.shape.coord2idx cs + 1 < g.size → p.cells.get (if dims.length = 2 then cs.reverse else cs) = rd (g.shape.coord2idx cs)) ∧
    (q.length ≤ (header fmt g ++ (List.range (g.size - 1)).flatMap (fun i => '\n' :: fmt (g.value i))).length + 1 → parseGrid num nat q = none) :=
  parseGrid_cut hN fmt g.value rd g dims leaf' hshape hf hnd hleaf hv q hq

/-- The same for the velocities written by `saveVelocities`. -/
theorem C119_cut_velocities_partial (num : Str → Option F) (nat : F → Option Nat) (hN : MatlabNumbers num nat) (fmt : F → Str) (rd : Nat → F) (g : Grid F) (dims : List Nat) (leaf' : F)
    (hshape : g.shape = Shape.mk' dims) (hf : Fits dims (2^32)) (hnd : dims.length < 2^32) (hleaf : ReadAs num (fmt g.leaf) leaf')
    (hv : ∀ i < g.size, ReadAs num (fmt (g.vel i)) (rd i)) (q : Str) (hq : q <+: saveVelocities fmt g) :
    (parseGrid num nat q = none ∨ ∃ p, parseGrid num nat q = some p ∧ p.celltype = "FMCell - Fast Marching cell".toList ∧ p.leafsize = leaf' ∧ p.ndims = dims.length ∧
      p.dimsize = dims ∧ (dims.length = 2 → p.cells.dims = dims.reverse) ∧ (dims.length ≠ 2 → dims.getLast? ≠ some 1 → p.cells.dims = dims) ∧
      ∀ cs, InBox dims cs → g.shape.coord2idx cs + 1 < g.size → p.cells.get (if dims.length = 2 then cs.reverse else cs) = rd (g.shape.coord2idx cs)) ∧
    (q.length ≤ (header fmt g ++ (List.range (g.size - 1)).flatMap (fun i => '\n' :: fmt (g.vel i))).length + 1 → parseGrid num nat q = none) :=
  parseGrid_cut hN fmt g.vel rd g dims leaf' hshape hf hnd hleaf hv q hq

namespace Decimal
variable {R : Rounding}

/-- **C119** in doubles: every cell but the last one has the number with six significant digits nearest to the value of the grid. -/
theorem _root_.FMV.C119_cut_doubles_partial (g : Grid (F64 R)) (dims : List Nat) (hshape : g.shape = Shape.mk' dims) (hf : Fits dims (2^32)) (hnd : dims.length < 2^32) (q : Str)
    (hq : q <+: saveGridValues fmtG g) :
    parseGrid (matlabNum R) matlabNat q = none ∨ ∃ p, parseGrid (matlabNum R) matlabNat q = some p ∧ Printed g.leaf p.leafsize ∧ p.dimsize = dims ∧
      ∀ cs, InBox dims cs → g.shape.coord2idx cs + 1 < g.size → Printed (g.value (g.shape.coord2idx cs)) (p.cells.get (if dims.length = 2 then cs.reverse else cs)) := by
  rcases (C119_cut_values_partial (matlabNum R) matlabNat C112_matlab_numbers fmtG (fun i => asRead (g.value i)) g dims _ hshape hf hnd (readAs g.leaf) (fun i _ => readAs _) q hq).1 with
    h | ⟨p, h1, -, h2, -, h3, -, -, h4⟩
  · exact .inl h
  · exact .inr ⟨p, h1, h2 ▸ asRead_printed _, h3, fun cs hc hi => by rw [h4 cs hc hi]; exact asRead_printed _⟩

/-- **C119**, refuted for the last cell: if its value is the whole number `n`, and the file is cut inside the digits of `n` such that those of `m` are left, MATLAB reads the file without an error, and the last
cell is `m`. -/
theorem _root_.FMV.C119_refuted_last (g : Grid (F64 R)) (dims : List Nat) (hshape : g.shape = Shape.mk' dims) (hf : Fits dims (2^32)) (hnd : dims.length < 2^32) (n m : Nat) (hn : n < 10^6) (hm : m < 10^6)
    (hlast : (g.value (g.size - 1)).1 = .fin (n : ℝ)) (q v : Str) (hd : decimal n = decimal m ++ v) (hq : saveGridValues fmtG g = q ++ v) :
    ∃ p, parseGrid (matlabNum R) matlabNat q = some p ∧ p.dimsize = dims ∧
      ∀ cs, InBox dims cs → g.shape.coord2idx cs + 1 = g.size → (p.cells.get (if dims.length = 2 then cs.reverse else cs)).1 = .fin (m : ℝ) := by
  have hsz : g.size = dims.prod := by
    show g.shape.ncells = _
    rw [hshape]; exact mk'_ncells hf
  have hpos : 0 < dims.prod := List.prod_pos (fun x hx => hf.pos x hx)
  obtain ⟨k, hk⟩ : ∃ k, g.size = k + 1 := ⟨g.size - 1, by omega⟩
  have hq' : q = header fmtG g ++ ((List.range k).flatMap (fun i => '\n' :: fmtG (g.value i)) ++ '\n' :: decimal m) := by
    apply List.append_cancel_right (bs := v)
    rw [← hq]
    unfold saveGridValues
    rw [hk, Nat.add_sub_cancel] at hlast
    rw [hk, List.range_succ, List.flatMap_append, List.flatMap_singleton, C112_whole _ hn hlast, hd]
    simp
  have hnum : numbers (matlabNum R) (words ((List.range k).flatMap (fun i => '\n' :: fmtG (g.value i)) ++ '\n' :: decimal m)) = (List.range g.size).map (fun i => if i = k then ofNat m else asRead (g.value i)) := by
    rw [words_lines (fun i => fmtG (g.value i)) (List.range k) (fun i _ => ⟨(readAs (g.value i)).1, (readAs (g.value i)).2.1⟩) (stop_nl _), words_space (by decide)]
    have hw := words_token (word_decimal m) (r := []) (Or.inl rfl)
    rw [List.append_nil, words_nil] at hw
    rw [hw, numbers_append (matlabNum R) (fun i => fmtG (g.value i)) (fun i => asRead (g.value i)) (List.range k) (fun i _ => (readAs _).2.2),
      numbers_cons (matlabNum R) (num_decimal C112_matlab_numbers (lt_trans hm (by norm_num))), hk, List.range_succ, List.map_append]
    congr 1
    · exact List.map_congr_left (fun i hi => (if_neg (by have := List.mem_range.1 hi; omega)).symm)
    · simp [numbers]
  have hst : Stop ((List.range k).flatMap (fun i => '\n' :: fmtG (g.value i)) ++ '\n' :: decimal m) := by
    cases k with
    | zero => exact stop_nl _
    | succ k => rw [List.range_succ_eq_map, List.flatMap_cons, List.append_assoc]; exact stop_nl _
  have h := parseGrid_tail (num := matlabNum R) (nat := matlabNat) C112_matlab_numbers fmtG g _ dims hshape hf hnd (readAs g.leaf) _ hst
  rw [← hq', hnum, if_neg (by simp [hsz])] at h
  refine ⟨_, h, rfl, fun cs hc hi => ?_⟩
  rw [(parsed_cells _ hf hsz _ rfl).2.2 cs hc, ← hshape, if_pos (by omega)]
  exact ofNat_val (lt_trans hm (by norm_num))

/-- non-vacuity of `C119_cut_values_partial`, `C119_cut_velocities_partial` and `C119_refuted_last`: a 2 x 3 grid in which all values are 17 and all speeds 1, and its files cut one character before the end -/
example : ∃ (g : Grid (F64 R)) (q q' : Str), g.shape = Shape.mk' [2,3] ∧ Fits [2,3] (2^32) ∧ (g.value (g.size - 1)).1 = .fin ((17:Nat):ℝ) ∧ ReadAs (matlabNum R) (fmtG g.leaf) (asRead g.leaf) ∧
    (∀ i < g.size, ReadAs (matlabNum R) (fmtG (g.value i)) (asRead (g.value i)) ∧ ReadAs (matlabNum R) (fmtG (g.vel i)) (asRead (g.vel i))) ∧
    q' <+: saveVelocities fmtG g ∧ decimal 17 = decimal 1 ++ ['7'] ∧ saveGridValues fmtG g = q ++ ['7'] := by
  let e : Grid (F64 R) := Grid.create [2,3] Arith.one (0, 0)
  let g : Grid (F64 R) := { e with cells := fun i => { e.cells i with value := ofNat 17 } }
  have hv : ∀ i, (g.value i).1 = .fin ((17:Nat):ℝ) := fun i => ofNat_val (by norm_num)
  refine ⟨g, header fmtG g ++ ((List.range 5).flatMap (fun i => '\n' :: fmtG (g.value i)) ++ '\n' :: decimal 1), header fmtG g, rfl, ⟨by decide, by decide, by decide⟩, hv _, readAs _,
    fun i _ => ⟨readAs _, readAs _⟩, List.prefix_append _ _, by simp [decimal, digitChar], ?_⟩
  unfold saveGridValues
  rw [show g.size = 5 + 1 from rfl, List.range_succ, List.flatMap_append, List.flatMap_singleton, C112_whole _ (by norm_num) (hv 5), show decimal 17 = decimal 1 ++ ['7'] by simp [decimal, digitChar]]
  simp

end Decimal
end FMV
