import Verif.Props.MatlabLog
import Verif.Spec.Analyze
/-! C104: the analysis script gives the number of cells of every benchmark and the mean time of every solver; it fails if a benchmark has saved grids in the same directory. -/
set_option linter.unusedSectionVars false
set_option linter.unusedVariables false
namespace FMV
open Spec Arith Console Text FMV.IO Matlab
variable {F : Type} [Arith F]

namespace Matlab
theorem mapM_none {α β : Type} (f : α → Option β) : ∀ (l : List α) (a : α), a ∈ l → f a = none → l.mapM f = none
  | [], a, h, _ => absurd h (by simp)
  | x :: l, a, h, hf => by
    rw [List.mapM_cons]
    rcases List.mem_cons.1 h with rfl | h
    · rw [hf]; rfl
    · cases f x with
      | none => rfl
      | some y => simp [mapM_none f l a h hf]

theorem fillColumn_spec (i : Nat) (e : ParsedLog F) (m : Mat F) :
    (fillColumn i e m).rows = max m.rows e.exp.length ∧ (∀ j c, c ≠ i → (fillColumn i e m).get j c = m.get j c) ∧
    (∀ j, j < e.exp.length → (fillColumn i e m).get j i = mean (e.exp.getD j ([], [])).2) ∧ (∀ j, e.exp.length ≤ j → (fillColumn i e m).get j i = m.get j i) := by
  unfold fillColumn
  generalize e.exp.length = n
  induction n with
  | zero => simp
  | succ n ih =>
    rw [List.range_succ, List.foldl_append]
    simp only [List.foldl_cons, List.foldl_nil]
    obtain ⟨h1, h2, h3, h4⟩ := ih
    refine ⟨?_, ?_, ?_, ?_⟩
    · show max _ (n+1) = _
      rw [h1]; omega
    · intro j c hc
      show (if j = n ∧ c = i then _ else _) = _
      rw [if_neg (fun h => hc h.2)]; exact h2 j c hc
    · intro j hj
      show (if j = n ∧ i = i then _ else _) = _
      split
      next h => rw [h.1]
      next h => exact h3 j (by have : j ≠ n := fun e => h ⟨e, rfl⟩
                               omega)
    · intro j hj
      show (if j = n ∧ i = i then _ else _) = _
      rw [if_neg (fun h => by omega)]; exact h4 j (by omega)

/-- a directory among the entries stops the script -/
theorem analyze_dir (num : Str → Option F) (nan : F) (nat : F → Option Nat) (d : List Entry) (e : Entry) (he : e ∈ d.drop 2) (hc : e.content = none) :
    analyze num nan nat d = none := by
  unfold analyze
  rw [mapM_none _ _ e he (by rw [hc]; rfl)]; rfl

/-- what the script makes of logs it can read -/
theorem analyze_read (num : Str → Option F) (nan : F) (nat : F → Option Nat) (d0 d1 : Entry) (k : Nat) (hk : 0 < k) (file : Nat → Entry) (bm : Nat → ParsedLog F)
    (h : ∀ i, i < k → ((file i).content.bind (parseBenchmarkLog num nan nat)) = some (bm i)) (m : Nat) (hm : ∀ i, i < k → (bm i).exp.length = m) :
    ∃ r, analyze num nan nat (d0 :: d1 :: (List.range k).map file) = some r ∧ r.ncells = (List.range k).map (fun i => prodAll (bm i).dimsize) ∧
      r.algs = (bm 0).exp.map Prod.fst ∧ r.times.rows = m ∧ ∀ i j, i < k → j < m → r.times.get j i = mean ((bm i).exp.getD j ([], [])).2 := by
  have e1 : ((List.range k).map file).mapM (fun f => f.content.bind (parseBenchmarkLog num nan nat)) = some ((List.range k).map bm) := by
    rw [List.mapM_map]
    refine mapM_range _ _ _ (by simp) (fun i hi => ?_)
    simp only [List.length_map, List.length_range] at hi
    rw [show ((fun f => f.content.bind (parseBenchmarkLog num nan nat)) ∘ file) i = _ from h i hi]
    simp
  have e2 : ((List.range k).map bm).head? = some (bm 0) := by
    rw [List.head?_eq_getElem?, List.getElem?_map, List.getElem?_range hk]; rfl
  have e3 : ∀ n, n ≤ k → ∀ M, M = (List.range n).foldl (fun m i => match ((List.range k).map bm)[i]? with | some e => fillColumn i e m | none => m)
      (zeros (bm 0).exp.length ((List.range k).map bm).length) → M.rows = m ∧ ∀ i j, i < n → j < m → M.get j i = mean ((bm i).exp.getD j ([], [])).2 := by
    intro n
    induction n with
    | zero =>
      intro _ M hM
      subst hM
      exact ⟨hm 0 hk, fun i j hi => absurd hi (by omega)⟩
    | succ n ih =>
      intro hn M hM
      obtain ⟨a1, a2⟩ := ih (by omega) _ rfl
      rw [List.range_succ, List.foldl_append] at hM
      simp only [List.foldl_cons, List.foldl_nil, List.getElem?_map, List.getElem?_range (show n < k by omega), Option.map_some] at hM a1 a2
      subst hM
      obtain ⟨h1, h2, h3, h4⟩ := fillColumn_spec n (bm n) ((List.range n).foldl (fun m i => match Option.map bm (List.range k)[i]? with | some e => fillColumn i e m | none => m)
        (zeros (bm 0).exp.length ((List.range k).map bm).length))
      refine ⟨?_, fun i j hi hj => ?_⟩
      · rw [h1, a1, hm n (by omega)]; exact max_self _
      · by_cases hin : i = n
        · subst hin
          exact h3 j (by rw [hm i (by omega)]; exact hj)
        · rw [h2 j i hin]; exact a2 i j (by omega) hj
  obtain ⟨b1, b2⟩ := e3 ((List.range k).map bm).length (by simp) _ rfl
  refine ⟨⟨((List.range k).map bm).map (fun e => prodAll e.dimsize), (bm 0).exp.map Prod.fst, (List.range ((List.range k).map bm).length).foldl (fun m i => match ((List.range k).map bm)[i]? with
      | some e => fillColumn i e m
      | none => m) (zeros (bm 0).exp.length ((List.range k).map bm).length)⟩, ?_, by simp [Function.comp_def], rfl, b1, fun i j hi hj => b2 i j (by simpa using hi) hj⟩
  unfold analyze
  simp only [List.drop_succ_cons, List.drop_zero, e1, Option.bind_eq_bind, Option.bind_some, e2]
  rfl
end Matlab

/-- **C104**: let `k` benchmarks have been run, whose names and solver names are words, with the same solver names in the same order, and let the listing of the results directory have their
logs after the two special entries. Then the script gives the number of cells of every benchmark's grid (the product of its sizes), the names of the solvers, and for every solver and every
benchmark the mean of the times of its runs. -/
theorem C104_analysis (num : Str → Option F) (nan : F) (nat : F → Option Nat) (hN : MatlabNumbers num nat) (hnan : (num "nan".toList).getD nan = nan) (pop : FMM.St F → Nat → Prop)
    (k : Nat) (hk : 0 < k) (b : Nat → Bench) (time : Nat → Nat → Str) (tval : Nat → Nat → F) (t t' : Nat → Bench.St F) (dims : Nat → List Nat) (names : List Str)
    (fname : Nat → Str) (d0 d1 : Entry)
    (h : ∀ i, i < k → Bench.Runs pop (b i) (time i) (t i) (t' i)) (hsh : ∀ i, i < k → (t i).w.grid.shape = Shape.mk' (dims i))
    (hb : ∀ i, i < k → (t i).runID + (b i).solvers.length * (b i).nruns < 2^32) (h0 : ∀ i, i < k → (t i).log = []) (hruns : ∀ i, i < k → (b i).nruns ≠ 0)
    (hlt : ∀ i, i < k → (b i).nruns < 2^32 ∧ (dims i).length < 2^32 ∧ (∀ d ∈ dims i, d < 2^32) ∧ (b i).pts.length < 2^32 ∧ (∀ p ∈ (b i).pts, p < 2^32) ∧ (b i).goal < 2^32)
    (hname : ∀ i, i < k → (b i).name ≠ [] ∧ ∀ c ∈ (b i).name, isSpace c = false) (hsame : ∀ i, i < k → (b i).solvers.map Prod.snd = names)
    (hnames : ∀ s ∈ names, s ≠ [] ∧ ∀ c ∈ s, isSpace c = false) (htime : ∀ i, i < k → ∀ n, ReadAs num (time i n) (tval i n)) :
    ∃ r, analyze num nan nat (d0 :: d1 :: (List.range k).map (fun i => ⟨fname i, some (t' i).log⟩)) = some r ∧
      r.ncells = (List.range k).map (fun i => ((dims i).map ofNat).foldl mul one) ∧ r.algs = names ∧ r.times.rows = names.length ∧
      ∀ i j, i < k → j < names.length → r.times.get j i =
        div (((List.range (b i).nruns).map (fun n => tval i ((t i).runID + 1 + (j * (b i).nruns + n)))).foldl add zero) (ofNat (b i).nruns) := by
  have key : ∀ i, ∃ bm : ParsedLog F, i < k → parseBenchmarkLog num nan nat (t' i).log = some bm ∧ bm.dimsize = (dims i).map ofNat ∧ bm.exp.length = names.length ∧
      ∀ j s, names[j]? = some s → bm.exp[j]? = some (s, (List.range (b i).nruns).map (fun n => tval i ((t i).runID + 1 + (j * (b i).nruns + n)))) := by
    intro i
    by_cases hi : i < k
    · obtain ⟨bm, a1, _, _, _, a5, _, _, _, a9, a10⟩ := C77_log num nan nat hN hnan pop (b i) (time i) (tval i) (t i) (t' i) (h i hi) (dims i) (hsh i hi) (hb i hi) (h0 i hi) (hruns i hi)
        (hlt i hi) (hname i hi) (fun s hs => hnames s.2 (by rw [← hsame i hi]; exact List.mem_map_of_mem hs)) (htime i hi)
      refine ⟨bm, fun _ => ⟨a1, a5, by rw [a9, ← hsame i hi]; simp, fun j s hs => ?_⟩⟩
      rw [← hsame i hi, List.getElem?_map] at hs
      obtain ⟨q, hq, rfl⟩ := Option.map_eq_some_iff.1 hs
      exact a10 j q hq
    · exact ⟨⟨[], 0, 0, [], [], nan, 0, []⟩, fun h => absurd h hi⟩
  choose bm hbm using key
  obtain ⟨r, r1, r2, r3, r4, r5⟩ := analyze_read num nan nat d0 d1 k hk (fun i => ⟨fname i, some (t' i).log⟩) bm (fun i hi => (hbm i hi).1) names.length (fun i hi => (hbm i hi).2.2.1)
  refine ⟨r, r1, ?_, ?_, r4, ?_⟩
  · rw [r2]
    apply List.map_congr_left
    intro i hi
    rw [(hbm i (List.mem_range.1 hi)).2.1]; rfl
  · rw [r3]
    obtain ⟨_, _, c3, c4⟩ := hbm 0 hk
    apply List.ext_getElem (by simp [c3])
    intro j h1 h2
    have := c4 j _ (List.getElem?_eq_getElem h2)
    rw [List.getElem_map, (List.getElem?_eq_some_iff.1 this).2]
  · intro i j hi hj
    rw [r5 i j hi hj]
    have := (hbm i hi).2.2.2 j _ (List.getElem?_eq_getElem hj)
    rw [List.getD_eq_getElem?_getD, this]
    show mean _ = _
    unfold mean
    simp

/-- **C104**, refuted where grids are saved: if one of the benchmarks whose results are in the directory was run with `saveGrid` set, the script stops with an error - whatever else the directory
has, and wherever the listing has its entry after the two special ones: the directory of its grids is taken for a log. -/
theorem C104_refuted_saved_grids (num : Str → Option F) (nan : F) (nat : F → Option Nat) (saveGrid : Nat) (hs : saveGrid ≠ 0) (saveLog : Bool) (name log : Str) (d0 d1 : Entry)
    (rest : List Entry) (hin : ∀ e ∈ Disk.resultEntries saveGrid saveLog name log, e ∈ rest) : analyze num nan nat (d0 :: d1 :: rest) = none :=
  analyze_dir num nan nat _ ⟨name, none⟩ (hin _ (by unfold Disk.resultEntries; rw [if_pos hs]; simp)) rfl

/-- **C104**, refuted for some names: if the listing is in the order of the character codes and the log of one benchmark has a name that begins with a character before the dot (such as `+` or
`-`), the two entries the script drops are not the special ones, and it stops with an error. -/
theorem C104_refuted_names (num : Str → Option F) (nan : F) (nat : F → Option Nat) (d es : List Entry) (hd : Listing d es) (e : Entry) (he : e ∈ es) (c : Char) (cs : Str)
    (hn : e.name = c :: cs) (hc : c < '.') : analyze num nan nat d = none := by
  have m1 : (⟨['.'], none⟩ : Entry) ∈ d := hd.all.mem_iff.2 (by simp)
  have m2 : (⟨['.', '.'], none⟩ : Entry) ∈ d := hd.all.mem_iff.2 (by simp)
  have m3 : e ∈ d := hd.all.mem_iff.2 (by simp [he])
  obtain ⟨n, hn2, q2⟩ := List.getElem_of_mem m2
  obtain ⟨n1, hn1, q1⟩ := List.getElem_of_mem m1
  obtain ⟨n3, hn3, q3⟩ := List.getElem_of_mem m3
  have ord := List.pairwise_iff_getElem.1 hd.sorted
  have lt13 : e.name < ['.'] := by rw [hn]; exact List.Lex.rel hc
  have lt12 : (['.'] : Str) < ['.', '.'] := List.Lex.cons List.Lex.nil
  have o1 : n3 < n1 := by
    by_contra hcon
    rcases Nat.lt_or_ge n1 n3 with hh | hh
    · have := ord n1 n3 hn1 hn3 hh
      rw [q1, q3] at this
      exact absurd (List.lt_trans this lt13) (List.lt_irrefl _)
    · have : n1 = n3 := by omega
      subst this
      rw [q1] at q3
      rw [← q3] at lt13
      exact absurd lt13 (List.lt_irrefl _)
  have o2 : n1 < n := by
    by_contra hcon
    rcases Nat.lt_or_ge n n1 with hh | hh
    · have := ord n n1 hn2 hn1 hh
      rw [q1, q2] at this
      exact absurd (List.lt_trans this lt12) (List.lt_irrefl _)
    · have : n1 = n := by omega
      subst this
      rw [q1] at q2
      cases q2
  apply analyze_dir num nan nat d ⟨['.', '.'], none⟩ _ rfl
  rw [← q2]
  have : d[n] = (d.drop 2)[n - 2]'(by rw [List.length_drop]; omega) := by
    rw [List.getElem_drop]; congr 1; omega
  rw [this]
  exact List.getElem_mem _
end FMV
namespace FMV
open Spec Arith Console Text FMV.IO Matlab

/-- non-vacuity of `C104_analysis`: the log of the benchmark `Bench.exRun`, twice; and a listing as in `C104_refuted_names` -/
example : (∃ r, ∃ log : Str, analyze exNum XR.nan exNat [⟨['.'], none⟩, ⟨['.', '.'], none⟩, ⟨"a.log".toList, some log⟩, ⟨"b.log".toList, some log⟩] = some r ∧ r.algs = ["FMM".toList] ∧
      r.times.rows = 1) ∧
    Listing [⟨"+a.log".toList, some []⟩, ⟨['.'], none⟩, ⟨['.', '.'], none⟩] [⟨"+a.log".toList, some []⟩] := by
  constructor
  · obtain ⟨t', h⟩ := Bench.exRun
    have d0 : exNum "0".toList = some (ofNat 0 : XR) := exNumbers.read "0".toList 0 (by norm_num) ⟨⟨by decide, by decide⟩, by decide⟩
    obtain ⟨r, r1, r2, r3, r4, _⟩ := C104_analysis exNum XR.nan exNat exNumbers (by unfold exNum; rw [if_neg (by decide)]; rfl) FMM.IsTop 2 (by norm_num)
      (fun _ => ⟨[(0, "FMM".toList)], [0], noGoal, 1, 2, "bm".toList⟩) (fun _ _ => "0".toList) (fun _ _ => ofNat 0) (fun _ => _) (fun _ => t') (fun _ => [2,2]) ["FMM".toList]
      (fun i => if i = 0 then "a.log".toList else "b.log".toList) ⟨['.'], none⟩ ⟨['.', '.'], none⟩ (fun _ _ => h) (fun _ _ => rfl) (fun _ _ => by show 0 + 1 * 1 < _; norm_num)
      (fun _ _ => rfl) (fun _ _ => by show 1 ≠ 0; norm_num) (fun _ _ => by decide) (fun _ _ => by decide) (fun _ _ => rfl) (by decide)
      (fun _ _ _ => ⟨by decide, by decide, d0⟩)
    exact ⟨r, t'.log, r1, r3, r4⟩
  · refine ⟨?_, ?_⟩
    · have : (⟨"+a.log".toList, some []⟩ : Entry) :: [⟨['.'], none⟩, ⟨['.', '.'], none⟩] = [⟨"+a.log".toList, some []⟩, ⟨['.'], none⟩, ⟨['.', '.'], none⟩] := rfl
      exact List.perm_append_comm (l₁ := [_]) (l₂ := [_, _])
    · simp only [List.pairwise_cons]
      decide
end FMV
