import Verif.Props.MatlabLog
/-
C118: the log of a benchmark whose writing was interrupted.

`saveLog()` (benchmark.hpp:166-172) writes the log to its file from the beginning; if the program is stopped meanwhile, the file has a beginning of the log.
-/
namespace FMV
open Console Text Arith Spec FMV.IO Matlab Shape
variable {F : Type} [Arith F]

namespace Matlab

theorem prefix_append_cases {α : Type} {q a b : List α} (h : q <+: a ++ b) : q <+: a ∨ ∃ r, q = a ++ r ∧ r <+: b := by
  rcases List.prefix_or_prefix_of_prefix h (List.prefix_append a b) with h1 | ⟨r, rfl⟩
  · exact .inl h1
  · exact .inr ⟨r, rfl, (List.prefix_append_right_inj a).1 h⟩

theorem prefix_flat {α : Type} (L : Nat → List α) (N : Nat) (q : List α) (h : q <+: (List.range N).flatMap L) :
    ∃ m r, q = (List.range m).flatMap L ++ r ∧ ((m ≤ N ∧ r = []) ∨ (m < N ∧ r <+: L m ∧ r ≠ [])) := by
  induction N with
  | zero => exact ⟨0, [], by simpa using h, .inl ⟨le_refl _, rfl⟩⟩
  | succ N ih =>
    rw [List.range_succ, List.flatMap_append, List.flatMap_singleton] at h
    rcases prefix_append_cases h with h | ⟨r, rfl, h'⟩
    · obtain ⟨m, r, e, ⟨c1, c2⟩ | ⟨c1, c2⟩⟩ := ih h
      · exact ⟨m, r, e, .inl ⟨by omega, c2⟩⟩
      · exact ⟨m, r, e, .inr ⟨by omega, c2⟩⟩
    · by_cases hr : r = []
      · exact ⟨N, r, rfl, .inl ⟨by omega, hr⟩⟩
      · exact ⟨N, r, rfl, .inr ⟨by omega, h', hr⟩⟩

/-- white space at the end adds an empty piece -/
theorem pieces_end (t : Str) (ht : Word t) (l : List (Char × Str)) (hl : ∀ p ∈ l, isSpace p.1 = true ∧ Word p.2) (c : Char) (hc : isSpace c = true) :
    pieces (t ++ l.flatMap (fun p => p.1 :: p.2) ++ [c]) = t :: (l.map (·.2) ++ [[]]) := by
  induction l generalizing t with
  | nil =>
    unfold pieces
    rw [List.flatMap_nil, List.append_nil, collapse_word ht.2, collapse, if_pos hc, if_neg (by simp), splitFrom_word ht.2, List.nil_append, splitFrom, if_pos (Or.inl rfl)]
    rfl
  | cons p ps ih =>
    obtain ⟨h1, h2⟩ := hl p (by simp)
    have := ih p.2 h2 (fun q hq => hl q (by simp [hq]))
    unfold pieces at this ⊢
    rw [List.append_assoc] at this
    rw [List.flatMap_cons, List.append_assoc, List.append_assoc, collapse_word ht.2, List.cons_append, collapse, if_pos h1, if_neg (by simp), splitFrom_word ht.2, List.nil_append, splitFrom,
      if_pos (Or.inl rfl), collapse_true_word h2, this]
    rfl

/-- the last word may be empty -/
theorem pieces_last (t : Str) (ht : Word t) (l : List (Char × Str)) (hl : ∀ p ∈ l, isSpace p.1 = true ∧ Word p.2) (c : Char) (hc : isSpace c = true) (u : Str) (hu : ∀ x ∈ u, isSpace x = false) :
    pieces (t ++ l.flatMap (fun p => p.1 :: p.2) ++ c :: u) = t :: (l.map (·.2) ++ [u]) := by
  by_cases h : u = []
  · subst h; exact pieces_end t ht l hl c hc
  · have := pieces_words t ht (l ++ [(c, u)]) (by
      intro p hp
      rcases List.mem_append.1 hp with hp | hp
      · exact hl p hp
      · rw [List.mem_singleton.1 hp]; exact ⟨hc, h, hu⟩)
    simpa using this

theorem prefix_spaceless {q t : Str} (h : q <+: t) (ht : ∀ c ∈ t, isSpace c = false) : ∀ c ∈ q, isSpace c = false := fun c hc => ht c (h.subset hc)

/-- the beginnings of a line: how many words, and which -/
theorem prefix_line {r n nm tm : Str} (hn : ∀ c ∈ n, isSpace c = false) (hnm : ∀ c ∈ nm, isSpace c = false) (hne : r ≠ [])
    (h : r <+: '\n' :: (n ++ '\t' :: (nm ++ '\t' :: tm))) :
    (∃ u, (∀ c ∈ u, isSpace c = false) ∧ r = '\n' :: u) ∨ (∃ u, (∀ c ∈ u, isSpace c = false) ∧ r = '\n' :: (n ++ '\t' :: u)) ∨
      ∃ u, u <+: tm ∧ r = '\n' :: (n ++ '\t' :: (nm ++ '\t' :: u)) := by
  cases r with
  | nil => exact absurd rfl hne
  | cons c r =>
    obtain ⟨rfl, h1⟩ := List.cons_prefix_cons.1 h
    rcases prefix_append_cases h1 with h2 | ⟨r1, rfl, h2⟩
    · exact .inl ⟨r, prefix_spaceless h2 hn, rfl⟩
    · cases r1 with
      | nil => exact .inl ⟨n, hn, by simp⟩
      | cons c r2 =>
        obtain ⟨rfl, h3⟩ := List.cons_prefix_cons.1 h2
        rcases prefix_append_cases h3 with h4 | ⟨r3, rfl, h4⟩
        · exact .inr (.inl ⟨r2, prefix_spaceless h4 hnm, rfl⟩)
        · cases r3 with
          | nil => exact .inr (.inl ⟨nm, hnm, by simp⟩)
          | cons c r4 =>
            obtain ⟨rfl, h5⟩ := List.cons_prefix_cons.1 h4
            exact .inr (.inr ⟨r4, h5, rfl⟩)

/-- the words of the first `m` lines, the times being the texts `tx` -/
def lineWords (id nm tx : Nat → Str) (m : Nat) : List Str := ((List.range m).map (fun i => [id i, nm i, tx i])).flatten

theorem lineWords_length (id nm tx : Nat → Str) (m : Nat) : (lineWords id nm tx m).length = m * 3 := by
  unfold lineWords
  rw [flat_length _ 3 (by intro l hl; obtain ⟨i, _, rfl⟩ := List.mem_map.1 hl; rfl)]; simp

theorem lineWords_get (id nm tx : Nat → Str) (m i j : Nat) (hi : i < m) (hj : j < 3) : (lineWords id nm tx m)[i * 3 + j]? = [id i, nm i, tx i][j]? := by
  unfold lineWords
  rw [flat_get _ 3 (by intro l hl; obtain ⟨i, _, rfl⟩ := List.mem_map.1 hl; rfl) i j hj, List.getElem?_map, List.getElem?_range hi]; rfl

theorem rowCount_other (h n r : Nat) (h1 : 0 < r) (h2 : r < 3) : rowCount (h + (n * 3 + r)) h 3 = none := by
  unfold rowCount
  rw [if_neg]
  rintro ⟨-, -, h3⟩
  omega

theorem parse_ragged (num : Str → Option F) (nan : F) (nat : F → Option Nat) (hN : MatlabNumbers num nat) (file name goal : Str) (nums : List Str) (nruns : Nat)
    (dims pts : List Nat) (body : List Str) (htxt : pieces file = name :: (nums ++ goal :: body))
    (hnums : List.Forall₂ Denotes nums (nruns :: dims.length :: dims ++ pts.length :: pts)) (hlt : ∀ n ∈ nruns :: dims.length :: dims ++ pts.length :: pts, n < 2^32) (m r : Nat)
    (hb : body.length = m * 3 + r) (h1 : 0 < r) (h2 : r < 3) : parseBenchmarkLog num nan nat file = none := by
  rw [parse_words num nan nat hN file name goal nums nruns dims pts body htxt hnums hlt, hb, rowCount_other _ _ _ h1 h2]; rfl

/-- what is read from `m` lines -/
theorem parse_lines (num : Str → Option F) (nan : F) (nat : F → Option Nat) (hN : MatlabNumbers num nat) (file name goal : Str) (nums : List Str) (nruns : Nat)
    (dims pts : List Nat) (id nm tx : Nat → Str) (m : Nat) (htxt : pieces file = name :: (nums ++ goal :: lineWords id nm tx m))
    (hnums : List.Forall₂ Denotes nums (nruns :: dims.length :: dims ++ pts.length :: pts)) (hlt : ∀ n ∈ nruns :: dims.length :: dims ++ pts.length :: pts, n < 2^32) (hruns : nruns ≠ 0) :
    (¬ nruns ∣ m → parseBenchmarkLog num nan nat file = none) ∧
    ∀ j, m = j * nruns → ∃ bm, parseBenchmarkLog num nan nat file = some bm ∧ bm.nexp = m ∧
      bm.exp = (List.range j).map (fun i => (nm (i * nruns), (List.range nruns).map (fun r => str2double num nan (tx (i * nruns + r))))) := by
  have hp := parse_words num nan nat hN file name goal nums nruns dims pts _ htxt hnums hlt
  rw [lineWords_length, rowCount_three] at hp
  have s1 : (List.range m).mapM (fun i => (lineWords id nm tx m)[i * 3 + 1]?) = some ((List.range m).map nm) := by
    refine mapM_range _ _ _ (by simp) (fun i hi => ?_)
    have hi' : i < m := by simpa using hi
    rw [lineWords_get _ _ _ _ _ _ hi' (by decide)]
    simp
  have s2 : (List.range m).mapM (fun i => (lineWords id nm tx m)[i * 3 + 2]?.map (str2double num nan)) = some ((List.range m).map (fun i => str2double num nan (tx i))) := by
    refine mapM_range _ _ _ (by simp) (fun i hi => ?_)
    have hi' : i < m := by simpa using hi
    rw [lineWords_get _ _ _ _ _ _ hi' (by decide)]
    simp
  simp only [Option.bind_eq_bind, Option.bind_some, s1, s2] at hp
  constructor
  · intro hd
    have : rowCount m 0 nruns = none := by
      unfold rowCount
      rw [Nat.sub_zero, if_neg]
      rintro ⟨-, -, h⟩
      exact hd (Nat.dvd_of_mod_eq_zero h)
    rw [hp, this]; rfl
  · intro j hj
    have s3 : rowCount m 0 nruns = some j := by
      unfold rowCount
      rw [Nat.sub_zero, hj, if_pos ⟨Nat.zero_le _, hruns, Nat.mul_mod_left _ _⟩, Nat.mul_div_cancel _ (Nat.pos_of_ne_zero hruns)]
    have s4 : (List.range j).mapM (fun i => (piece ((List.range m).map nm) (i * nruns + 1)).map
        (fun s => (s, (((List.range m).map (fun i => str2double num nan (tx i))).drop (i * nruns)).take nruns))) =
        some ((List.range j).map (fun i => (nm (i * nruns), (List.range nruns).map (fun r => str2double num nan (tx (i * nruns + r)))))) := by
      refine mapM_range _ _ _ (by simp) (fun i hi => ?_)
      have hi' : i < j := by simpa using hi
      have hle : i * nruns + nruns ≤ m := by rw [hj, ← Nat.succ_mul]; exact Nat.mul_le_mul_right _ hi'
      have h0 := Nat.pos_of_ne_zero hruns
      rw [piece_get _ _ (by omega), Nat.add_sub_cancel, List.getElem?_map, List.getElem?_range (by omega)]
      simp only [Option.map_some, List.getElem_map, List.getElem_range, Option.some.injEq, Prod.mk.injEq, true_and]
      apply List.ext_getElem
      · simp; omega
      · intro k h1 h2
        simp
    simp only [s3, s4, Option.bind_some] at hp
    exact ⟨_, hp, rfl, rfl⟩

theorem lineWords_succ (id nm tx : Nat → Str) (m : Nat) (u : Str) : lineWords id nm tx m ++ [id m, nm m, u] = lineWords id nm (fun i => if i = m then u else tx i) (m + 1) := by
  unfold lineWords
  rw [List.range_succ, List.map_append, List.flatten_append]
  congr 1
  · congr 1
    apply List.map_congr_left
    intro i hi
    have := List.mem_range.1 hi
    show _ = [id i, nm i, if i = m then u else tx i]
    rw [if_neg (by omega)]
  · simp
end Matlab

namespace Matlab
theorem prefix_words (ws : List Str) (hw : ∀ y ∈ ws, ∀ c ∈ y, isSpace c = false) (q : Str) (h : q <+: ws.flatMap (fun y => '\t' :: y)) :
    ∃ k, k ≤ ws.length ∧ (q = (ws.take k).flatMap (fun y => '\t' :: y) ∨ k < ws.length ∧ ∃ u, (∀ c ∈ u, isSpace c = false) ∧ q = (ws.take k).flatMap (fun y => '\t' :: y) ++ '\t' :: u) := by
  induction ws generalizing q with
  | nil => exact ⟨0, le_refl _, .inl (by simpa using h)⟩
  | cons w ws ih =>
    rw [List.flatMap_cons] at h
    rcases prefix_append_cases h with h1 | ⟨r, rfl, h1⟩
    · cases q with
      | nil => exact ⟨0, Nat.zero_le _, .inl rfl⟩
      | cons c u =>
        obtain ⟨rfl, h2⟩ := List.cons_prefix_cons.1 h1
        exact ⟨0, Nat.zero_le _, .inr ⟨by simp, u, prefix_spaceless h2 (hw w (by simp)), rfl⟩⟩
    · obtain ⟨k, hk, e⟩ := ih (fun y hy => hw y (by simp [hy])) r h1
      refine ⟨k + 1, by simpa using hk, ?_⟩
      rcases e with rfl | ⟨hk2, u, hu, rfl⟩
      · exact .inl (by simp)
      · exact .inr ⟨by simpa using hk2, u, hu, by simp⟩

/-- the pieces of a beginning of the header: some complete ones, and one more -/
theorem pieces_head (name : Str) (hname : Word name) (ws : List Str) (hw : ∀ y ∈ ws, Word y) (q : Str) (h : q <+: name ++ ws.flatMap (fun y => '\t' :: y)) :
    ∃ k u, k ≤ ws.length ∧ pieces q = (name :: ws).take k ++ [u] := by
  rcases prefix_append_cases h with h1 | ⟨r, rfl, h1⟩
  · have hq := prefix_spaceless h1 hname.2
    refine ⟨0, q, Nat.zero_le _, ?_⟩
    unfold pieces
    have e1 := collapse_word hq []
    have e2 := splitFrom_word hq [] []
    simp only [List.append_nil, List.nil_append, collapse, splitFrom] at e1 e2
    rw [e1, e2]; rfl
  · obtain ⟨k, hk, e⟩ := prefix_words ws (fun y hy => (hw y hy).2) r h1
    have hl : ∀ p ∈ (ws.take k).map (fun y => ('\t', y)), isSpace p.1 = true ∧ Word p.2 := by
      intro p hp
      obtain ⟨y, hy, rfl⟩ := List.mem_map.1 hp
      exact ⟨sp_tab, hw y (List.mem_of_mem_take hy)⟩
    rcases e with rfl | ⟨hk2, u, hu, rfl⟩
    · have := pieces_words name hname _ hl
      simp only [List.flatMap_map, List.map_map, Function.comp_def, List.map_id'] at this
      have hlen : k < (name :: ws).length := by simp; omega
      refine ⟨k, (name :: ws)[k], hk, ?_⟩
      rw [this, ← List.take_succ_cons, List.take_succ_eq_append_getElem hlen]
    · have := pieces_last name hname _ hl '\t' sp_tab u hu
      simp only [List.flatMap_map, List.map_map, Function.comp_def, List.map_id', List.append_assoc] at this
      exact ⟨k + 1, u, hk2, by rw [← List.append_assoc] at this ⊢; rw [this]; simp⟩

/-- from a beginning of the header no times are read -/
theorem parse_head (num : Str → Option F) (nan : F) (nat : F → Option Nat) (hN : MatlabNumbers num nat) (file name goal : Str) (nums : List Str) (nruns : Nat)
    (dims pts : List Nat) (k : Nat) (u : Str) (hk : k ≤ nums.length + 1) (htxt : pieces file = (name :: (nums ++ [goal])).take k ++ [u])
    (hnums : List.Forall₂ Denotes nums (nruns :: dims.length :: dims ++ pts.length :: pts)) (hlt : ∀ n ∈ nruns :: dims.length :: dims ++ pts.length :: pts, n < 2^32)
    (bm : ParsedLog F) (hbm : parseBenchmarkLog num nan nat file = some bm) : bm.nexp = 0 ∧ bm.exp = [] := by
  set vals := nruns :: dims.length :: dims ++ pts.length :: pts with hvals
  have hvl : vals.length = 3 + dims.length + pts.length := by rw [hvals]; simp; omega
  have hl : nums.length = 3 + dims.length + pts.length := by rw [hnums.length_eq, hvl]
  set txt := pieces file with htx
  have hlen : txt.length = k + 1 := by
    rw [htxt, List.length_append, List.length_take]; simp; omega
  have hread : ∀ j n : Nat, vals[j]? = some n → j + 2 < txt.length → (piece txt (j + 2)).bind (fun s => nat (str2double num nan s)) = some n := by
    intro j n hj hjl
    have hk1 : j < vals.length := (List.getElem?_eq_some_iff.1 hj).1
    have hk2 : j < nums.length := by rw [hl, ← hvl]; exact hk1
    have hd := (List.forall₂_iff_get.1 hnums).2 j hk2 hk1
    have hn : vals[j] = n := (List.getElem?_eq_some_iff.1 hj).2
    simp only [List.get_eq_getElem, hn] at hd
    have hnlt := hlt n (List.mem_of_getElem? hj)
    have : piece txt (j + 2) = some nums[j] := by
      rw [piece_get _ _ (by omega), htxt, show j + 2 - 1 = j + 1 from rfl, List.getElem?_append_left (by rw [List.length_take]; simp; omega), List.getElem?_take,
        if_pos (by omega), List.getElem?_cons_succ, List.getElem?_append_left hk2, List.getElem?_eq_getElem hk2]
    rw [this]
    simp only [Option.bind_some, str2double, hN.read _ _ hnlt hd, Option.getD_some, hN.size n hnlt]
  have hb : parsePieces num nan nat txt = some bm := hbm
  unfold parsePieces at hb
  obtain ⟨a1, -, hb⟩ := Option.bind_eq_some_iff.1 hb
  obtain ⟨nr, -, hb⟩ := Option.bind_eq_some_iff.1 hb
  obtain ⟨nd, h3, hb⟩ := Option.bind_eq_some_iff.1 hb
  obtain ⟨a4, -, hb⟩ := Option.bind_eq_some_iff.1 hb
  obtain ⟨ns, h5, hb⟩ := Option.bind_eq_some_iff.1 hb
  obtain ⟨a6, -, hb⟩ := Option.bind_eq_some_iff.1 hb
  obtain ⟨a7, -, hb⟩ := Option.bind_eq_some_iff.1 hb
  obtain ⟨nexp, h8, hb⟩ := Option.bind_eq_some_iff.1 hb
  obtain ⟨a9, -, hb⟩ := Option.bind_eq_some_iff.1 hb
  obtain ⟨a10, -, hb⟩ := Option.bind_eq_some_iff.1 hb
  obtain ⟨groups, h11, hb⟩ := Option.bind_eq_some_iff.1 hb
  obtain ⟨exp, h12, hb⟩ := Option.bind_eq_some_iff.1 hb
  have h13 := hb
  have h8' : 5 + nd + ns ≤ txt.length ∧ nexp = (txt.length - (5 + nd + ns)) / 3 := by
    unfold rowCount at h8
    split at h8
    next hc => exact ⟨hc.1, (Option.some.inj h8).symm⟩
    next => cases h8
  have e1 := hread 1 dims.length rfl (by omega)
  have hnd : nd = dims.length := by
    have h3' : (piece txt (1 + 2)).bind (fun s => nat (str2double num nan s)) = some nd := by rw [Option.bind_eq_some_iff]; exact Option.bind_eq_some_iff.1 h3
    rw [e1] at h3'; exact (Option.some.inj h3').symm
  subst hnd
  have e2 := hread (2 + dims.length) pts.length (by
    rw [hvals, show 2 + dims.length = dims.length + 1 + 1 from by omega]
    simp) (by omega)
  have hns : ns = pts.length := by
    have h5' : (piece txt (2 + dims.length + 2)).bind (fun s => nat (str2double num nan s)) = some ns := by
      rw [show 2 + dims.length + 2 = 4 + dims.length by omega, Option.bind_eq_some_iff]; exact Option.bind_eq_some_iff.1 h5
    rw [e2] at h5'; exact (Option.some.inj h5').symm
  subst hns
  have hz : nexp = 0 := by rw [h8'.2]; omega
  subst hz
  have hg : groups = 0 := by
    unfold rowCount at h11
    split at h11
    next hc => have := Option.some.inj h11; simp at this; omega
    next => cases h11
  subst hg
  have : exp = [] := by simpa using h12.symm
  subst this
  cases h13
  exact ⟨rfl, rfl⟩
end Matlab

open Matlab in
/-- **C118**: let the log of a benchmark be cut anywhere. If the script reads the file at all, what it gives is, for some of the first solvers, their names and the times of all
their runs, except perhaps the very last time. -/
theorem C118_cut_log_partial (num : Str → Option F) (nan : F) (nat : F → Option Nat) (hN : MatlabNumbers num nat) (pop : FMM.St F → Nat → Prop) (b : Bench)
    (time : Nat → Str) (tval : Nat → F) (t t' : Bench.St F) (h : Bench.Runs pop b time t t') (dims : List Nat) (hsh : t.w.grid.shape = Shape.mk' dims)
    (hb : t.runID + b.solvers.length * b.nruns < 2^32) (h0 : t.log = []) (hruns : b.nruns ≠ 0)
    (hlt : b.nruns < 2^32 ∧ dims.length < 2^32 ∧ (∀ d ∈ dims, d < 2^32) ∧ b.pts.length < 2^32 ∧ (∀ p ∈ b.pts, p < 2^32) ∧ b.goal < 2^32)
    (hname : b.name ≠ [] ∧ ∀ c ∈ b.name, isSpace c = false) (hsolvers : ∀ s ∈ b.solvers, s.2 ≠ [] ∧ ∀ c ∈ s.2, isSpace c = false)
    (htime : ∀ k, ReadAs num (time k) (tval k)) (file : Str) (hfile : file <+: t'.log) (bm : ParsedLog F) (hbm : parseBenchmarkLog num nan nat file = some bm) :
    bm.exp.length ≤ b.solvers.length ∧ bm.nexp = bm.exp.length * b.nruns ∧
      ∀ i s, b.solvers[i]? = some s → i < bm.exp.length → ∃ ts, bm.exp[i]? = some (s.2, ts) ∧ ts.length = b.nruns ∧
        ∀ r, r < b.nruns → i * b.nruns + r + 1 < bm.nexp → ts[r]? = some (tval (t.runID + 1 + (i * b.nruns + r))) := by
  obtain ⟨nums, goal, id, e1, e2, e3, e4⟩ := log_text t t' h dims hsh hb h0
  have hNn := C45_names b
  set N := b.solvers.length * b.nruns with hNdef
  set nm : Nat → Str := fun i => (runNames b).getD i [] with hnm
  have hnmw : ∀ i < N, Word (nm i) := by
    intro i hi
    have : nm i ∈ runNames b := by
      rw [hnm]; simp only
      rw [List.getD_eq_getElem?_getD, List.getElem?_eq_getElem (by rw [hNn]; exact hi)]
      exact List.getElem_mem _
    obtain ⟨s, hs, h'⟩ := mem_runNames this
    rw [← h']; exact hsolvers s hs
  set tx : Nat → Str := fun i => time (t.runID + 1 + i) with htx
  have hlt' : ∀ n ∈ b.nruns :: dims.length :: dims ++ b.pts.length :: b.pts, n < 2^32 := by
    intro n hn
    simp only [List.mem_cons, List.mem_append] at hn
    obtain ⟨l1, l2, l3, l4, l5, -⟩ := hlt
    rcases hn with (rfl | rfl | hn) | rfl | hn
    exacts [l1, l2, l3 n hn, l4, l5 n hn]
  -- the words of the header and the first `m` lines
  set pre : Nat → List (Char × Str) := fun m => (nums ++ [goal]).map (fun y => ('\t', y)) ++ (List.range m).flatMap (fun i => [('\n', id i), ('\t', nm i), ('\t', tx i)]) with hpre
  have hprew : ∀ m, m ≤ N → ∀ p ∈ pre m, isSpace p.1 = true ∧ Word p.2 := by
    intro m hm p hp
    rcases List.mem_append.1 hp with hp | hp
    · obtain ⟨y, hy, rfl⟩ := List.mem_map.1 hp
      refine ⟨sp_tab, ?_⟩
      rcases List.mem_append.1 hy with h' | h'
      · exact nums_word e2 y h'
      · rw [List.mem_singleton.1 h']; exact goal_word e3
    · obtain ⟨i, hi, h'⟩ := List.mem_flatMap.1 hp
      have hi := List.mem_range.1 hi
      simp only [List.mem_cons, List.not_mem_nil, or_false] at h'
      rcases h' with rfl | rfl | rfl
      · exact ⟨sp_nl, Word.number (e4 i (by omega))⟩
      · exact ⟨sp_tab, hnmw i (by omega)⟩
      · exact ⟨sp_tab, (htime _).1, (htime _).2.1⟩
  have hpre2 : ∀ m, (pre m).map (·.2) = nums ++ goal :: lineWords id nm tx m := by
    intro m
    rw [hpre]
    simp only [List.map_append, List.map_map, List.map_flatMap, List.map_cons, List.map_nil]
    unfold lineWords
    rw [List.flatMap_def]
    simp [Function.comp_def]
  have hpret : ∀ m, (pre m).flatMap (fun p => p.1 :: p.2) = (nums ++ [goal]).flatMap (fun y => '\t' :: y) ++
      (List.range m).flatMap (fun i => '\n' :: (id i ++ '\t' :: (nm i ++ '\t' :: tx i))) := by
    intro m
    rw [hpre]
    simp only [List.flatMap_append, List.flatMap_map, List.flatMap_assoc, List.flatMap_cons, List.flatMap_nil, List.append_nil, List.cons_append, List.append_assoc]
  -- a beginning of the header
  by_cases hhead : file <+: b.name ++ (nums ++ [goal]).flatMap (fun y => '\t' :: y)
  · obtain ⟨k, u, hk, htxt⟩ := pieces_head b.name hname _ (by
      intro y hy
      rcases List.mem_append.1 hy with h' | h'
      · exact nums_word e2 y h'
      · rw [List.mem_singleton.1 h']; exact goal_word e3) file hhead
    obtain ⟨z1, z2⟩ := parse_head num nan nat hN file b.name goal nums b.nruns dims b.pts k u (by simpa using hk) htxt e2 hlt' bm hbm
    rw [z1, z2]
    exact ⟨Nat.zero_le _, by simp, fun i s _ hi => absurd hi (by simp)⟩
  -- the beginning of the log
  obtain ⟨m, r, rfl, hr⟩ : ∃ m r, file = b.name ++ (pre m).flatMap (fun p => p.1 :: p.2) ++ r ∧
      ((m ≤ N ∧ r = []) ∨ (m < N ∧ r <+: '\n' :: (id m ++ '\t' :: (nm m ++ '\t' :: tx m)) ∧ r ≠ [])) := by
    rw [e1] at hfile
    rcases prefix_append_cases hfile with hf | ⟨q, rfl, hq⟩
    · exact absurd hf hhead
    · obtain ⟨m, r, rfl, hr⟩ := prefix_flat _ N q hq
      exact ⟨m, r, by rw [hpret]; simp only [List.append_assoc]; rfl, hr⟩
  -- the result for complete lines
  have fin : ∀ (k : Nat) (u : Nat → Str), k ≤ N → pieces (b.name ++ (pre m).flatMap (fun p => p.1 :: p.2) ++ r) = b.name :: (nums ++ goal :: lineWords id nm u k) →
      (∀ i, i + 1 < k → u i = tx i) → bm.exp.length ≤ b.solvers.length ∧ bm.nexp = bm.exp.length * b.nruns ∧
      ∀ i s, b.solvers[i]? = some s → i < bm.exp.length → ∃ ts, bm.exp[i]? = some (s.2, ts) ∧ ts.length = b.nruns ∧
        ∀ r, r < b.nruns → i * b.nruns + r + 1 < bm.nexp → ts[r]? = some (tval (t.runID + 1 + (i * b.nruns + r))) := by
    intro k u hk htxt hu
    obtain ⟨p1, p2⟩ := parse_lines num nan nat hN _ b.name goal nums b.nruns dims b.pts id nm u k htxt e2 hlt' hruns
    by_cases hd : b.nruns ∣ k
    · obtain ⟨j, hj⟩ := hd
      rw [Nat.mul_comm] at hj
      obtain ⟨bm', q1, q2, q3⟩ := p2 j hj
      rw [hbm] at q1
      obtain rfl := Option.some.inj q1
      have hlen : bm.exp.length = j := by rw [q3]; simp
      have hjs : j ≤ b.solvers.length := by
        rw [hj, hNdef] at hk
        exact Nat.le_of_mul_le_mul_right hk (Nat.pos_of_ne_zero hruns)
      refine ⟨by rw [hlen]; exact hjs, by rw [hlen, q2, hj], fun i s hs hi => ?_⟩
      rw [hlen] at hi
      refine ⟨(List.range b.nruns).map (fun r => str2double num nan (u (i * b.nruns + r))), ?_, by simp, fun r hr hlast => ?_⟩
      · rw [q3, List.getElem?_map, List.getElem?_range hi]
        have := runNames_get (b := b) hs (Nat.pos_of_ne_zero hruns)
        rw [Nat.add_zero] at this
        rw [hnm]
        simp only [Option.map_some]
        rw [List.getD_eq_getElem?_getD, this]; rfl
      · rw [List.getElem?_map, List.getElem?_range hr]
        simp only [Option.map_some]
        rw [hu _ (by rw [← q2]; exact hlast)]
        show some (str2double num nan (time _)) = _
        unfold str2double
        rw [(htime _).2.2]; rfl
    · rw [p1 hd] at hbm; cases hbm
  rcases hr with ⟨hm, rfl⟩ | ⟨hm, hr, hne⟩
  · refine fin m tx hm ?_ (fun i _ => rfl)
    rw [List.append_nil, pieces_words b.name hname _ (hprew m hm), hpre2]
  · rcases prefix_line (Word.number (e4 m hm)).2 (hnmw m hm).2 hne hr with ⟨u, hu, rfl⟩ | ⟨u, hu, rfl⟩ | ⟨u, hu, rfl⟩
    · have := pieces_last b.name hname _ (hprew m hm.le) '\n' sp_nl u hu
      rw [hpre2] at this
      rw [parse_ragged num nan nat hN _ b.name goal nums b.nruns dims b.pts (lineWords id nm tx m ++ [u]) (by rw [this]; simp) e2 hlt' m 1
        (by rw [List.length_append, lineWords_length]; rfl) (by norm_num) (by norm_num)] at hbm
      cases hbm
    · have := pieces_last b.name hname (pre m ++ [('\n', id m)]) (by
        intro p hp
        rcases List.mem_append.1 hp with hp | hp
        · exact hprew m hm.le p hp
        · rw [List.mem_singleton.1 hp]; exact ⟨sp_nl, Word.number (e4 m hm)⟩) '\t' sp_tab u hu
      rw [List.map_append, hpre2] at this
      rw [parse_ragged num nan nat hN _ b.name goal nums b.nruns dims b.pts (lineWords id nm tx m ++ [id m, u]) (by
        simp only [List.flatMap_append, List.flatMap_cons, List.flatMap_nil, List.append_nil, List.append_assoc, List.cons_append, List.map_cons, List.map_nil, List.nil_append] at this ⊢
        rw [this]) e2 hlt' m 2
        (by rw [List.length_append, lineWords_length]; rfl) (by norm_num) (by norm_num)] at hbm
      cases hbm
    · have := pieces_last b.name hname (pre m ++ [('\n', id m), ('\t', nm m)]) (by
        intro p hp
        rcases List.mem_append.1 hp with hp | hp
        · exact hprew m hm.le p hp
        · simp only [List.mem_cons, List.not_mem_nil, or_false] at hp
          rcases hp with rfl | rfl
          · exact ⟨sp_nl, Word.number (e4 m hm)⟩
          · exact ⟨sp_tab, hnmw m hm⟩) '\t' sp_tab u (prefix_spaceless hu (htime _).2.1)
      rw [List.map_append, hpre2] at this
      refine fin (m + 1) (fun i => if i = m then u else tx i) hm ?_ (fun i hi => if_neg (by omega))
      rw [← lineWords_succ]
      simp only [List.flatMap_append, List.flatMap_cons, List.flatMap_nil, List.append_nil, List.append_assoc, List.cons_append, List.map_cons, List.map_nil, List.nil_append] at this ⊢
      exact this

namespace Matlab
/-- the pieces of a log cut in a time -/
theorem pieces_cut (name goal : Str) (nums : List Str) (hname : Word name) (hnums : ∀ s ∈ nums, Word s) (hgoal : Word goal) (id nm tx : Nat → Str) (m : Nat)
    (hw : ∀ i, i ≤ m → Word (id i) ∧ Word (nm i) ∧ Word (tx i)) (u : Str) (hu : ∀ c ∈ u, isSpace c = false) :
    pieces (name ++ (nums ++ [goal]).flatMap (fun y => '\t' :: y) ++ (List.range m).flatMap (fun i => '\n' :: (id i ++ '\t' :: (nm i ++ '\t' :: tx i))) ++
      '\n' :: (id m ++ '\t' :: (nm m ++ '\t' :: u))) = name :: (nums ++ goal :: lineWords id nm (fun i => if i = m then u else tx i) (m + 1)) := by
  have := pieces_last name hname ((nums ++ [goal]).map (fun y => ('\t', y)) ++ (List.range m).flatMap (fun i => [('\n', id i), ('\t', nm i), ('\t', tx i)]) ++ [('\n', id m), ('\t', nm m)]) (by
    intro p hp
    rcases List.mem_append.1 hp with hp | hp
    · rcases List.mem_append.1 hp with hp | hp
      · obtain ⟨y, hy, rfl⟩ := List.mem_map.1 hp
        refine ⟨sp_tab, ?_⟩
        rcases List.mem_append.1 hy with h' | h'
        · exact hnums y h'
        · rw [List.mem_singleton.1 h']; exact hgoal
      · obtain ⟨i, hi, h'⟩ := List.mem_flatMap.1 hp
        obtain ⟨w1, w2, w3⟩ := hw i (List.mem_range.1 hi).le
        simp only [List.mem_cons, List.not_mem_nil, or_false] at h'
        rcases h' with rfl | rfl | rfl
        exacts [⟨sp_nl, w1⟩, ⟨sp_tab, w2⟩, ⟨sp_tab, w3⟩]
    · obtain ⟨w1, w2, -⟩ := hw m (le_refl _)
      simp only [List.mem_cons, List.not_mem_nil, or_false] at hp
      rcases hp with rfl | rfl
      exacts [⟨sp_nl, w1⟩, ⟨sp_tab, w2⟩]) '\t' sp_tab u hu
  rw [← lineWords_succ]
  unfold lineWords
  rw [← List.flatMap_def]
  simp only [List.flatMap_append, List.flatMap_map, List.flatMap_assoc, List.flatMap_cons, List.flatMap_nil, List.append_nil, List.append_assoc, List.cons_append, List.map_append, List.map_map,
    List.map_flatMap, List.map_cons, List.map_nil, List.nil_append] at this ⊢
  rw [this]
  simp [Function.comp_def]
end Matlab

open Matlab in
/-- **C118**, refuted for the last time: if the log is cut inside the very last time (`u` is what is left of it, perhaps nothing), the script reads the file without an error, and gives for the last run of the last solver
the number `u`, or no number. -/
theorem C118_refuted_last (num : Str → Option F) (nan : F) (nat : F → Option Nat) (hN : MatlabNumbers num nat) (pop : FMM.St F → Nat → Prop) (b : Bench)
    (time : Nat → Str) (t t' : Bench.St F) (h : Bench.Runs pop b time t t') (dims : List Nat) (hsh : t.w.grid.shape = Shape.mk' dims)
    (hb : t.runID + b.solvers.length * b.nruns < 2^32) (h0 : t.log = []) (hruns : b.nruns ≠ 0)
    (hlt : b.nruns < 2^32 ∧ dims.length < 2^32 ∧ (∀ d ∈ dims, d < 2^32) ∧ b.pts.length < 2^32 ∧ (∀ p ∈ b.pts, p < 2^32) ∧ b.goal < 2^32)
    (hname : b.name ≠ [] ∧ ∀ c ∈ b.name, isSpace c = false) (hsolvers : ∀ s ∈ b.solvers, s.2 ≠ [] ∧ ∀ c ∈ s.2, isSpace c = false)
    (htime : ∀ k, time k ≠ [] ∧ ∀ c ∈ time k, isSpace c = false) (s : Nat × Str) (rest : List (Nat × Str)) (hs : b.solvers = rest ++ [s]) (file u v : Str)
    (hT : time (t.runID + b.solvers.length * b.nruns) = u ++ v) (hfile : t'.log = file ++ v) :
    ∃ bm, parseBenchmarkLog num nan nat file = some bm ∧ bm.exp.length = b.solvers.length ∧
      ∃ ts, bm.exp[rest.length]? = some (s.2, ts) ∧ ts[b.nruns - 1]? = some ((num u).getD nan) := by
  obtain ⟨nums, goal, id, e1, e2, e3, e4⟩ := log_text t t' h dims hsh hb h0
  have hNn := C45_names b
  have hS : b.solvers.length = rest.length + 1 := by rw [hs]; simp
  set N := b.solvers.length * b.nruns with hNdef
  obtain ⟨m, hm⟩ : ∃ m, N = m + 1 := ⟨N - 1, by
    have : 0 < N := by rw [hNdef, hS]; exact Nat.mul_pos (by omega) (Nat.pos_of_ne_zero hruns)
    omega⟩
  set nm : Nat → Str := fun i => (runNames b).getD i [] with hnm
  have hnmw : ∀ i < N, Word (nm i) := by
    intro i hi
    have : nm i ∈ runNames b := by
      rw [hnm]; simp only
      rw [List.getD_eq_getElem?_getD, List.getElem?_eq_getElem (by rw [hNn]; exact hi)]
      exact List.getElem_mem _
    obtain ⟨s, hs, h'⟩ := mem_runNames this
    rw [← h']; exact hsolvers s hs
  have hlt' : ∀ n ∈ b.nruns :: dims.length :: dims ++ b.pts.length :: b.pts, n < 2^32 := by
    intro n hn
    simp only [List.mem_cons, List.mem_append] at hn
    obtain ⟨l1, l2, l3, l4, l5, -⟩ := hlt
    rcases hn with (rfl | rfl | hn) | rfl | hn
    exacts [l1, l2, l3 n hn, l4, l5 n hn]
  have hu : ∀ c ∈ u, isSpace c = false := fun c hc => (htime _).2 c (by rw [hT]; exact List.mem_append_left _ hc)
  have hf : file = b.name ++ (nums ++ [goal]).flatMap (fun y => '\t' :: y) ++ (List.range m).flatMap (fun i => '\n' :: (id i ++ '\t' :: (nm i ++ '\t' :: time (t.runID + 1 + i)))) ++
      '\n' :: (id m ++ '\t' :: (nm m ++ '\t' :: u)) := by
    apply List.append_cancel_right (bs := v)
    have hsplit : ∀ L : Nat → Str, (List.range (m+1)).flatMap L = (List.range m).flatMap L ++ L m := fun L => by rw [List.range_succ, List.flatMap_append, List.flatMap_singleton]
    rw [← hfile, e1, hm, hsplit]
    rw [hm] at hT
    rw [show t.runID + 1 + m = t.runID + (m + 1) by omega, hT]
    simp only [List.append_assoc, List.cons_append]
    rfl
  have htxt := pieces_cut b.name goal nums hname (nums_word e2) (goal_word e3) id nm (fun i => time (t.runID + 1 + i)) m
    (fun i hi => ⟨Word.number (e4 i (by omega)), hnmw i (by omega), htime _⟩) u hu
  rw [← hf] at htxt
  obtain ⟨bm, q1, q2, q3⟩ := (parse_lines num nan nat hN file b.name goal nums b.nruns dims b.pts id nm _ (m + 1) htxt e2 hlt' hruns).2 b.solvers.length hm.symm
  have hlen : rest.length < b.solvers.length := by omega
  refine ⟨bm, q1, by rw [q3]; simp, (List.range b.nruns).map (fun r => str2double num nan (if rest.length * b.nruns + r = m then u else time (t.runID + 1 + (rest.length * b.nruns + r)))), ?_, ?_⟩
  · rw [q3, List.getElem?_map, List.getElem?_range hlen]
    have := runNames_get (b := b) (i := rest.length) (s := s) (j := 0) (by rw [hs]; simp) (Nat.pos_of_ne_zero hruns)
    rw [Nat.add_zero] at this
    rw [hnm]
    simp only [Option.map_some]
    rw [List.getD_eq_getElem?_getD, this]; rfl
  · rw [List.getElem?_map, List.getElem?_range (by omega)]
    have : rest.length * b.nruns + (b.nruns - 1) = m := by
      rw [hS, Nat.succ_mul] at hNdef
      omega
    simp only [Option.map_some, this, if_true]
    rfl
end FMV

namespace FMV.Bench
open Arith Spec Console Text Shape Life
variable {F : Type} [Arith F]

/-- one FMM, `nruns` = 1, on a 2 x 2 grid with unit speed, for numbers of any kind: the benchmark returns -/
theorem exRunOf (L : LtLaws F) (h1 : lt (one : F) margin = false) (time : Nat → Str) : ∃ t' : St F, Runs FMM.IsTop ⟨[(0, "FMM".toList)], [0], noGoal, 1, 2, "bm".toList⟩ time
    ⟨⟨Grid.create [2,2] one (0,0), fun _ => Obj.new (.fmm false .none) ⟨0, fun _ => zero, [], [], zero, zero⟩⟩, 0, [], []⟩ t' := by
  let g : Grid F := Grid.create [2,2] one (0,0)
  let w0 : World F := ⟨g, fun _ => Obj.new (.fmm false .none) ⟨0, fun _ => zero, [], [], zero, zero⟩⟩
  have hfree : ∀ j, g.occ j = false := fun j => h1
  have hpop : ∀ s : FMM.St F, s.heap ≠ [] → ∃ x ∈ s.heap, FMM.IsTop s x := fun s hs => by
      obtain ⟨x, hx, hmin⟩ := FMM.exists_min L (fun y => (s.g.cells y).total) s.heap hs
      exact ⟨x, hx, hx, hmin⟩
  have hcg : g.cleanGrid = g := rfl
  have d1 := Does.setEnvironment (pop := FMM.IsTop) w0 0
  have d2 := Does.setPoints (pop := FMM.IsTop) (w0.put 0 w0.grid.cleanGrid ((w0.obj 0).setEnvironment w0.grid.cleanGrid)) 0 [0] noGoal
  generalize hw2 : World.put (w0.put 0 w0.grid.cleanGrid ((w0.obj 0).setEnvironment w0.grid.cleanGrid)) 0 _ _ = w2 at d2
  have d3 := Does.reset (pop := FMM.IsTop) w2 0
  have hg2 : w2.grid = g := by rw [← hw2]; rfl
  have ho2 : w2.obj 0 = (w0.obj 0).setPoints [0] noGoal := by rw [← hw2, put_self]; rfl
  have hr : (w2.obj 0).reset w2.grid = (g, (w0.obj 0).setPoints [0] noGoal) := by rw [ho2, hg2]; rfl
  rw [hr] at d3
  have hsan : ((w0.obj 0).setPoints [0] noGoal).sanityChecks g = 0 := (sanity_iff _ _).2 ⟨rfl, by show [0] ≠ []; decide, fun p _ => hfree p, fun h => absurd rfl h, by show noGoal ∉ [0]; decide⟩
  obtain ⟨oo, o1, o2, o3, o4, _⟩ := fmm_setup g (o := (w0.obj 0).setPoints [0] noGoal) (d := false) (hh := .none) rfl
  obtain ⟨G, o', h5⟩ := fmm_returns FMM.IsTop hpop (o := oo) o2 o3 (dims := [2,2]) (g := g.setClean false)
      ⟨⟨by simp, by simp, by norm_num⟩, rfl, by rw [o4]; intro p hp; have : p = 0 := by simpa [Obj.setPoints] using hp
                                                subst this; decide⟩
  have d4 := Does.computeSetup (pop := FMM.IsTop) (w2.put 0 g ((w0.obj 0).setPoints [0] noGoal)) 0 (g.setClean false) oo G o'
    (by rw [put_self]; rfl) (by rw [put_self, put_grid]; unfold Obj.setup; rw [if_pos hsan, o1]) h5
  exact ⟨_, w2, .cons d1 d2 (.nil _), .cons (.succ (.mk _ _ _ d3 d4) (.zero _)) (.reset _ 0) (.nil _)⟩
end FMV.Bench

namespace FMV
open Spec Arith Console Text FMV.IO Matlab
/-- non-vacuity of `C118_cut_log_partial` and `C118_refuted_last`: the benchmark of `Bench.exRunOf`, whose run took 17 ms; the log without its last digit is read, with a time of 1 ms -/
example : ∃ (t' : Bench.St XR) (file : Str) (bm : ParsedLog XR), t'.log = file ++ "7".toList ∧ '\n' ∈ file ∧ parseBenchmarkLog exNum XR.nan exNat file = some bm ∧ bm.exp.length = 1 ∧ bm.nexp = bm.exp.length * 1 ∧
    ∃ ts, bm.exp[0]? = some ("FMM".toList, ts) ∧ ts[0]? = some (ofNat 1) := by
  have h1 : lt (one : XR) margin = false := by
    refine decide_eq_false ?_
    rw [not_lt]
    unfold XR.eps; norm_num
  obtain ⟨t', h⟩ := Bench.exRunOf XR.ltLaws h1 (fun _ => "17".toList)
  have hlt : (1:Nat) < 2^32 ∧ [2,2].length < 2^32 ∧ (∀ d ∈ [2,2], d < 2^32) ∧ [0].length < 2^32 ∧ (∀ p ∈ [0], p < 2^32) ∧ noGoal < 2^32 := by decide
  obtain ⟨nums, goal, id, e1, -, -, -⟩ := log_text _ t' h [2,2] rfl (by show 0 + 1 * 1 < _; norm_num) rfl
  have e : ∃ file, t'.log = file ++ "7".toList ∧ '\n' ∈ file := by
    refine ⟨"bm".toList ++ (nums ++ [goal]).flatMap (fun y => '\t' :: y) ++ '\n' :: (id 0 ++ '\t' :: ("FMM".toList ++ "\t1".toList)), ?_, by simp⟩
    rw [e1]
    show "bm".toList ++ _ ++ ('\n' :: (id 0 ++ '\t' :: ("FMM".toList ++ '\t' :: "17".toList)) ++ []) = _
    simp
  obtain ⟨file, f1, f2⟩ := e
  have d1 : exNum "1".toList = some (ofNat 1 : XR) := exNumbers.read "1".toList 1 (by norm_num) ⟨⟨by decide, by decide⟩, by decide⟩
  obtain ⟨bm, b1, b2, ts, b3, b4⟩ := C118_refuted_last exNum XR.nan exNat exNumbers FMM.IsTop ⟨[(0, "FMM".toList)], [0], noGoal, 1, 2, "bm".toList⟩ (fun _ => "17".toList) _ t' h [2,2] rfl
    (by show 0 + 1 * 1 < _; norm_num) rfl (by show 1 ≠ 0; norm_num) hlt (by decide) (by decide) (fun _ => ⟨by decide, by decide⟩) (0, "FMM".toList) [] rfl file "1".toList "7".toList rfl f1
  rw [d1] at b4
  have d17 : exNum "17".toList = some (ofNat 17 : XR) := exNumbers.read "17".toList 17 (by norm_num) ⟨⟨by decide, by decide⟩, by decide⟩
  have hc := C118_cut_log_partial exNum XR.nan exNat exNumbers FMM.IsTop ⟨[(0, "FMM".toList)], [0], noGoal, 1, 2, "bm".toList⟩ (fun _ => "17".toList) (fun _ => ofNat 17) _ t' h [2,2] rfl
    (by show 0 + 1 * 1 < _; norm_num) rfl (by show 1 ≠ 0; norm_num) hlt (by decide) (by decide) (fun _ => ⟨by decide, by decide, d17⟩) file ⟨_, f1.symm⟩ bm b1
  exact ⟨t', file, bm, f1, f2, b1, b2, hc.2.1, ts, b3, b4⟩
end FMV
