import Verif.Model.Disk
import Verif.Model.IO
import Verif.Spec.Disk
import Verif.Props.Benchmark
/-!
# C78: the files a benchmark leaves
-/
set_option linter.unusedVariables false
namespace FMV.Disk
open Arith Console Text Spec Life Bench
variable {F : Type} [Arith F] {pop : FMM.St F → Nat → Prop} {b : Bench} {time : Nat → Str} {w0 : World F}

theorem takeWhile_all {p : Char → Bool} (a : Str) (h : ∀ c ∈ a, p c = true) (r : Str) (x : Char) (hx : p x = false) : (a ++ x :: r).takeWhile p = a := by
  induction a with
  | nil => simp [hx]
  | cons y a ih => simp [h y (by simp), ih (fun c hc => h c (by simp [hc]))]

theorem filename_after (d n : Str) (hn : n ≠ []) (hs : '/' ∉ n) : filename (d ++ '/' :: n) = n := by
  unfold filename
  have : (d ++ '/' :: n).reverse = n.reverse ++ '/' :: d.reverse := by simp
  rw [this, takeWhile_all _ (by
    intro c hc
    have : c ∈ n := by simpa using hc
    exact decide_eq_true (fun e : c = '/' => hs (e ▸ this))) _ _ (by simp)]
  simp [hn]

theorem extension_after (d n s : Str) (hn : PlainName n) (h : Stem n s) : (extension (d ++ '/' :: n)).length + s.length = n.length ∧ s.isPrefixOf n = true := by
  unfold extension
  rw [filename_after d n hn.ne hn.sep]
  dsimp only
  rw [if_neg (by rintro (h | h); exacts [hn.dot h, hn.dots h])]
  rcases h with ⟨rfl, hd⟩ | ⟨e, rfl, he⟩
  · rw [if_neg hd]; simp
  · rw [if_pos (by simp)]
    have : (s ++ '.' :: e).reverse = e.reverse ++ '.' :: s.reverse := by simp
    rw [this, takeWhile_all _ (by
      intro c hc
      have : c ∈ e := by simpa using hc
      exact decide_eq_true (fun h : c = '.' => he (h ▸ this))) _ _ (by simp)]
    simp
    omega

theorem join_dir {path name : Str} (D : PlainDir path name) (n : Str) (hn : PlainName n) :
    join (join path name) n = path ++ '/' :: name ++ '/' :: n := by
  obtain ⟨c, cs, rfl⟩ : ∃ c cs, name = c :: cs := by
    cases h : name with
    | nil => exact absurd h D.named
    | cons c cs => exact ⟨c, cs, rfl⟩
  have hc : c ≠ '/' := fun h => D.nsep (by simp [h])
  have e1 : join path (c :: cs) = path ++ '/' :: c :: cs := by
    unfold join
    dsimp only
    rw [if_neg (by rintro (h | h | h); exacts [hc h, D.ne h, D.sep h])]
  rw [e1]
  obtain ⟨d, ds, rfl⟩ : ∃ d ds, n = d :: ds := by
    cases h : n with
    | nil => exact absurd h hn.ne
    | cons d ds => exact ⟨d, ds, rfl⟩
  unfold join
  dsimp only
  rw [if_neg]
  rintro (h | h | h)
  · exact hn.sep (by simp [h])
  · simp at h
  · rw [List.getLast?_append] at h
    have : ('/' :: c :: cs).getLast? = (c :: cs).getLast? := by simp [List.getLast?_cons]
    rw [this] at h
    cases hl : (c :: cs).getLast? with
    | none => simp at hl
    | some z =>
      rw [hl] at h
      have hz : z = '/' := by simpa using h
      exact D.nsep (hz ▸ List.mem_of_getLast? hl)

theorem gridPath_eq {path name : Str} (D : PlainDir path name) (n s : Str) (hn : PlainName n) (h : Stem n s) :
    gridPath path name n = fileOf path name s := by
  unfold gridPath replaceExtension fileOf
  rw [join_dir D n hn]
  obtain ⟨h1, h2⟩ := extension_after (path ++ '/' :: name) n s hn h
  rw [List.isPrefixOf_iff_prefix] at h2
  obtain ⟨e, rfl⟩ := h2
  have h3 : (path ++ '/' :: name ++ '/' :: (s ++ e)).length - (extension (path ++ '/' :: name ++ '/' :: (s ++ e))).length =
      (path ++ '/' :: name ++ '/' :: s).length := by
    simp only [List.length_append, List.length_cons] at h1 ⊢
    omega
  rw [h3]
  have h4 : path ++ '/' :: name ++ '/' :: (s ++ e) = (path ++ '/' :: name ++ '/' :: s) ++ e := by simp
  rw [h4, List.take_left]

theorem stem_exists (n : Str) : ∃ s, Stem n s := by
  by_cases h : '.' ∈ n
  · induction n with
    | nil => simp at h
    | cons c n ih =>
      by_cases h' : '.' ∈ n
      · obtain ⟨s, hs⟩ := ih h'
        rcases hs with ⟨rfl, h1⟩ | ⟨e, rfl, he⟩
        · exact absurd h' h1
        · exact ⟨c :: s, .inr ⟨e, rfl, he⟩⟩
      · have hc : c = '.' := by
          rcases List.mem_cons.1 h with h | h
          · exact h.symm
          · exact absurd h h'
        exact ⟨[], .inr ⟨n, by rw [hc]; rfl, h'⟩⟩
  · exact ⟨n, .inl ⟨rfl, h⟩⟩

theorem fileOf_inj {path name s s' : Str} (h : fileOf path name s = fileOf path name s') : s = s' := by
  unfold fileOf at h
  have := List.append_cancel_right h
  have := List.append_cancel_left this
  simpa using this

/-! ### files written in order -/

theorem saveGrids_other {α : Type} (path name : Str) (l : List (Str × α)) : ∀ (d : Files α) (p : Str), (∀ f ∈ l, gridPath path name f.1 ≠ p) →
    saveGrids d path name l p = d p := by
  induction l with
  | nil => intro d p _; rfl
  | cons f l ih =>
    intro d p h
    show saveGrids (d.write _ _) path name l p = _
    rw [ih _ _ (fun f hf => h f (by simp [hf]))]
    unfold Files.write
    rw [if_neg (fun e => h f (by simp) e.symm)]

/-- the last write to a path counts -/
theorem saveGrids_last {α : Type} (d : Files α) (path name : Str) (l1 l2 : List (Str × α)) (f : Str × α) (h : ∀ f' ∈ l2, gridPath path name f'.1 ≠ gridPath path name f.1) :
    saveGrids d path name (l1 ++ f :: l2) (gridPath path name f.1) = some f.2 := by
  unfold saveGrids
  rw [List.foldl_append, List.foldl_cons]
  have := saveGrids_other path name l2 ((l1.foldl (fun d f => d.write (gridPath path name f.1) f.2) d).write (gridPath path name f.1) f.2) _ h
  unfold saveGrids at this
  rw [this]
  unfold Files.write
  rw [if_pos rfl]

/-- the texts of the grids saved -/
def texts (fmt : F → Str) (fs : List (Str × Grid F)) : List (Str × Str) := fs.map (fun f => (f.1, IO.saveGridValues fmt f.2))

theorem texts_split {fmt : F → Str} {fs : List (Str × Grid F)} {i : Nat} {f : Str × Grid F} (h : fs[i]? = some f) :
    texts fmt fs = texts fmt (fs.take i) ++ (f.1, IO.saveGridValues fmt f.2) :: texts fmt (fs.drop (i+1)) := by
  have hi : i < fs.length := (List.getElem?_eq_some_iff.1 h).1
  have hf : fs[i] = f := (List.getElem?_eq_some_iff.1 h).2
  have : fs = fs.take i ++ f :: fs.drop (i+1) := by
    conv_lhs => rw [← List.take_append_drop i fs, List.drop_eq_getElem_cons hi, hf]
  conv_lhs => rw [this]
  unfold texts
  simp

theorem number_plain {n : Str} (h : IsNumber n) : PlainName n ∧ Stem n n := by
  have hd : '.' ∉ n := fun hc => absurd (h.2 '.' hc) (by decide)
  have hs : '/' ∉ n := fun hc => absurd (h.2 '/' hc) (by decide)
  exact ⟨⟨h.1, hs, fun e => hd (by simp [e]), fun e => hd (by simp [e])⟩, .inl ⟨rfl, hd⟩⟩

/-- **C78**: if the grid of every run is saved, then after the benchmark the result of each run is in a file of its own: run number `r` in `path/name/rrrr.grid`, where
`rrrr` are the digits of `r` (conditions as in `C45_results_partial`). -/
theorem _root_.FMV.C78_run_files (h0 : NewWorld w0) (A : Apart b w0) (h2 : b.saveGrid = 2) (t t' : Bench.St F) (ht : t.w = w0) (hf : t.files = [])
    (h : Runs pop b time t t') (hb : t.runID + b.solvers.length * b.nruns < 2^32) (path : Str) (D : PlainDir path b.name) (fmt : F → Str) (d : Files Str)
    (i : Nat) (hi : i < b.solvers.length * b.nruns) :
    ∃ num k G, Denotes num (t.runID + 1 + i) ∧ (b.solvers.flatMap (fun s => List.replicate b.nruns s.1))[i]? = some k ∧ Bench.Fresh pop b w0 k G ∧
      saveGrids d path b.name (texts fmt t'.files) (fileOf path b.name num) = some (IO.saveGridValues fmt G) := by
  obtain ⟨hl, hs⟩ := C45_results_partial h0 A h2 t t' ht hf h hb
  have hlen : (b.solvers.flatMap (fun s => List.replicate b.nruns s.1)).length = b.solvers.length * b.nruns := by simp [List.length_flatMap]
  obtain ⟨k, hk⟩ : ∃ k, (b.solvers.flatMap (fun s => List.replicate b.nruns s.1))[i]? = some k := ⟨_, List.getElem?_eq_getElem (by omega)⟩
  obtain ⟨f, hfi⟩ : ∃ f, t'.files[i]? = some f := ⟨_, List.getElem?_eq_getElem (by omega)⟩
  obtain ⟨n1, n2, n3⟩ := hs i k f hk hfi
  refine ⟨f.1, k, f.2, ⟨n1, n2⟩, hk, n3, ?_⟩
  have hp := number_plain n1
  rw [texts_split hfi, ← gridPath_eq D f.1 f.1 hp.1 hp.2]
  refine saveGrids_last _ _ _ _ _ (f.1, _) ?_
  intro f' hf'
  unfold texts at hf'
  obtain ⟨x, hx, rfl⟩ := List.mem_map.1 hf'
  obtain ⟨j, hj, ej⟩ := List.mem_iff_getElem.1 hx
  rw [List.length_drop] at hj
  rw [List.getElem_drop] at ej
  have hj' : t'.files[i + 1 + j]? = some x := by rw [List.getElem?_eq_getElem (by omega), ej]
  obtain ⟨k', hk'⟩ : ∃ k, (b.solvers.flatMap (fun s => List.replicate b.nruns s.1))[i + 1 + j]? = some k := ⟨_, List.getElem?_eq_getElem (by omega)⟩
  obtain ⟨m1, m2, _⟩ := hs _ k' x hk' hj'
  have hq := number_plain m1
  dsimp only
  rw [gridPath_eq D x.1 x.1 hq.1 hq.2, gridPath_eq D f.1 f.1 hp.1 hp.2]
  intro e
  have := fileOf_inj e
  rw [this, n2] at m2
  omega

/-- **C78** (with the condition that the solvers' names differ in more than the extension): if one grid per solver is saved, then after the benchmark the result of each
solver is in a file of its own, `path/name/solver.grid` (conditions as in `C45_last_results_partial`). -/
theorem _root_.FMV.C78_solver_files_partial (h0 : NewWorld w0) (A : Apart b w0) (h1 : b.saveGrid = 1) (hn : b.nruns ≠ 0) (t t' : Bench.St F) (ht : t.w = w0)
    (hf : t.files = []) (h : Runs pop b time t t') (path : Str) (D : PlainDir path b.name) (fmt : F → Str) (d : Files Str)
    (hplain : ∀ s ∈ b.solvers, PlainName s.2)
    (hdiff : ∀ (i j : Nat) (s s' : Nat × Str) st, b.solvers[i]? = some s → b.solvers[j]? = some s' → Stem s.2 st → Stem s'.2 st → i = j)
    (s : Nat × Str) (hs : s ∈ b.solvers) (st : Str) (hst : Stem s.2 st) :
    ∃ G, Bench.Fresh pop b w0 s.1 G ∧ saveGrids d path b.name (texts fmt t'.files) (fileOf path b.name st) = some (IO.saveGridValues fmt G) := by
  have hall := C45_last_results_partial h0 A h1 hn t t' ht hf h
  rw [List.forall₂_iff_get] at hall
  obtain ⟨hl, hg⟩ := hall
  obtain ⟨i, hi, rfl⟩ := List.mem_iff_getElem.1 hs
  obtain ⟨e1, e2⟩ := hg i hi (by omega)
  simp only [List.get_eq_getElem] at e1 e2
  refine ⟨_, e2, ?_⟩
  have hfi : t'.files[i]? = some t'.files[i] := List.getElem?_eq_getElem (by omega)
  rw [texts_split hfi, ← gridPath_eq D _ st (hplain _ hs) hst, ← e1]
  refine saveGrids_last _ _ _ _ _ (t'.files[i].1, _) ?_
  intro f' hf'
  unfold texts at hf'
  obtain ⟨x, hx, rfl⟩ := List.mem_map.1 hf'
  obtain ⟨j, hj, ej⟩ := List.mem_iff_getElem.1 hx
  rw [List.length_drop] at hj
  rw [List.getElem_drop] at ej
  have hjl : i + 1 + j < b.solvers.length := by omega
  obtain ⟨m1, _⟩ := hg (i + 1 + j) hjl (by omega)
  simp only [List.get_eq_getElem] at m1
  rw [ej] at m1
  have hst' : ∃ st', Stem (b.solvers[i + 1 + j]).2 st' := stem_exists _
  obtain ⟨st', hst'⟩ := hst'
  dsimp only
  rw [m1, e1, gridPath_eq D _ st' (hplain _ (List.getElem_mem hjl)) hst', gridPath_eq D _ st (hplain _ hs) hst]
  intro e
  have := fileOf_inj e
  subst this
  have := hdiff i (i + 1 + j) _ _ st' (List.getElem?_eq_getElem hi) (List.getElem?_eq_getElem hjl) hst hst'
  omega

/-- **C78** (refutation): if two solvers have names that differ in the extension only (or not at all), only the result of the later one is kept: the file that should hold the
earlier one's has the later one's.  Here for a benchmark of two solvers. -/
theorem _root_.FMV.C78_refuted (h0 : NewWorld w0) (A : Apart b w0) (h1 : b.saveGrid = 1) (hn : b.nruns ≠ 0) (t t' : Bench.St F) (ht : t.w = w0)
    (hf : t.files = []) (h : Runs pop b time t t') (path : Str) (D : PlainDir path b.name) (fmt : F → Str) (s s' : Nat × Str) (hb : b.solvers = [s, s'])
    (hp : PlainName s.2) (hp' : PlainName s'.2) (st : Str) (hst : Stem s.2 st) (hst' : Stem s'.2 st) :
    ∃ G, Bench.Fresh pop b w0 s'.1 G ∧ ∀ (d : Files Str) p, saveGrids d path b.name (texts fmt t'.files) p =
      if p = fileOf path b.name st then some (IO.saveGridValues fmt G) else d p := by
  have hall := C45_last_results_partial h0 A h1 hn t t' ht hf h
  rw [hb] at hall
  cases hfs : t'.files with
  | nil => rw [hfs] at hall; cases hall
  | cons f1 l =>
    rw [hfs] at hall
    cases hall with
    | cons a1 hall =>
      cases hall with
      | @cons _ f2 _ _ a2 hall =>
        cases hall
        refine ⟨f2.2, a2.2, fun d p => ?_⟩
        show (Files.write (Files.write d (gridPath path b.name f1.1) _) (gridPath path b.name f2.1) _) p = _
        rw [a1.1, a2.1, gridPath_eq D _ st hp hst, gridPath_eq D _ st hp' hst']
        unfold Files.write
        split <;> rfl

/-- **C78** (the log): however often `run()` is called on a benchmark, after each call the log file `path/name.log` holds exactly the text logged by this call. -/
theorem _root_.FMV.C78_log (path name : Str) (texts : List Str) (t : Str) (st : Files Str × Log) (h : st.2.read = st.2.text.length) :
    (runsLogged path name (texts ++ [t]) st).1 (path ++ '/' :: name ++ ".log".toList) = some t := by
  have key : ∀ (l : List Str) (st : Files Str × Log), st.2.read = st.2.text.length → (runsLogged path name l st).2.read = (runsLogged path name l st).2.text.length := by
    intro l
    induction l with
    | nil => intro st h; exact h
    | cons x l ih => intro st h; exact ih _ rfl
  unfold runsLogged
  rw [List.foldl_append]
  have := key texts st h
  unfold runsLogged at this
  generalize texts.foldl (fun st t => saveLog st.1 path name { st.2 with text := st.2.text ++ t }) st = s1 at this ⊢
  clear h key
  obtain ⟨d1, l1⟩ := s1
  dsimp only at this
  show Files.write d1 (logPath path name) ((l1.text ++ t).drop l1.read) (logPath path name) = some t
  rw [this, List.drop_left]
  exact if_pos rfl

/-! ### non-vacuity -/

/-- the names of two solvers with the extension `.01`, `.02`: the stem is the same, the files are the same -/
example : PlainName "FIM_0.01".toList ∧ PlainName "FIM_0.02".toList ∧ Stem "FIM_0.01".toList "FIM_0".toList ∧ Stem "FIM_0.02".toList "FIM_0".toList ∧
    PlainDir "results".toList "bm".toList ∧ gridPath "results".toList "bm".toList "FIM_0.02".toList = "results/bm/FIM_0.grid".toList :=
  ⟨⟨by decide, by decide, by decide, by decide⟩, ⟨by decide, by decide, by decide, by decide⟩, .inr ⟨"01".toList, by decide, by decide⟩,
    .inr ⟨"02".toList, by decide, by decide⟩, ⟨by decide, by decide, by decide, by decide⟩, by decide⟩

/-- the usual names of solvers differ in more than the extension -/
example (st : Str) (h : Stem "FMM".toList st) (h' : Stem "FSM".toList st) : False := by
  rcases h with ⟨rfl, _⟩ | ⟨e, h, _⟩
  · rcases h' with ⟨h, _⟩ | ⟨e, h, _⟩
    · exact absurd h (by decide)
    · have : '.' ∈ "FSM".toList := by rw [h]; simp
      exact absurd this (by decide)
  · have : '.' ∈ "FMM".toList := by rw [h]; simp
    exact absurd this (by decide)

/-- the log after two runs is that of the second -/
example : (runsLogged "results".toList "bm".toList ["a".toList, "b".toList] (fun _ => none, ⟨[], 0⟩)).1 "results/bm.log".toList = some "b".toList := by decide

end FMV.Disk
