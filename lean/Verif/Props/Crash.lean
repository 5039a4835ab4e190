import Verif.Model.Crash
import Verif.Props.Disk
/-!
# C109: an interrupted benchmark
-/
set_option linter.unusedVariables false
namespace FMV.Crash
open Arith Console Text Spec Life Bench Disk
variable {F : Type} [Arith F] {pop : FMM.St F → Nat → Prop} {b : Bench} {time : Nat → Str} {w0 : World F} {path : Str} {fmt : F → Str}
  {t : Bench.St F} {d d' : Files Str} {m : Nat}

theorem loop_fresh (h0 : NewWorld w0) (A : Apart b w0) (h2 : b.saveGrid = 2) {l : List (Nat × Str)} {t t' : Bench.St F} (hsub : ∀ s ∈ l, s ∈ b.solvers)
    (hl : Loop pop b time l t t') (hb : t.runID + l.length * b.nruns < 2^32) (hc : CarefulCalls false pop w0 t.w) (hh : Has b b.solvers t.w) :
    CarefulCalls false pop w0 t'.w ∧ Has b b.solvers t'.w ∧ t'.runID = t.runID + l.length * b.nruns ∧
      ∃ fs, t'.files = t.files ++ fs ∧ Saved pop b w0 (t.runID + 1) (l.flatMap (fun s => List.replicate b.nruns s.1)) fs := by
  induction hl with
  | nil => exact ⟨hc, hh, by simp, [], by simp, Saved.nil _⟩
  | @cons s l t t1 t2 w h3 h4 _ ih =>
    have hs := hsub s (by simp)
    rw [List.length_cons, Nat.add_mul, Nat.one_mul] at hb
    obtain ⟨c1, k1, fs, e, f⟩ := rounds_fresh h0 A h2 hs h3 (by omega) hc hh
    have hid := (rounds_log h3 (by omega)).1
    have c2 : CarefulCalls false pop w0 w := .snoc _ c1 (by
      rintro ⟨m, hm⟩
      rw [kind_of h0 c1] at hm
      exact absurd ⟨m, hm⟩ (A.lsm s hs)) h4
    have k2 : Has b b.solvers w := k1.does (by intro k p g hcon; cases hcon) h4
    obtain ⟨c3, k3, i3, fs', e', f'⟩ := ih (fun s hs => hsub s (by simp [hs])) (by dsimp only; omega) c2 k2
    dsimp only at e' f' i3
    rw [if_neg (by omega), e, List.append_assoc] at e'
    refine ⟨c3, k3, by rw [i3, hid, List.length_cons, Nat.add_mul, Nat.one_mul]; omega, fs ++ fs', e', ?_⟩
    rw [List.flatMap_cons]
    refine Saved.append f ?_
    rw [hid] at f'
    rw [List.length_replicate, show t.runID + 1 + b.nruns = t.runID + b.nruns + 1 by omega]
    exact f'

/-- the solvers of the runs, in order -/
def owners (b : Bench) : List Nat := b.solvers.flatMap (fun s => List.replicate b.nruns s.1)

theorem reached (h0 : NewWorld w0) (A : Apart b w0) (h2 : b.saveGrid = 2) (ht : t.w = w0) (hf : t.files = []) (hb : t.runID + b.solvers.length * b.nruns < 2^32)
    {done : List (Nat × Str)} {s : Nat × Str} {k : Nat} {t2 : Bench.St F} (h : Reached pop b time t done s k t2) :
    CarefulCalls false pop w0 t2.w ∧ Has b b.solvers t2.w ∧ s ∈ b.solvers ∧ t2.runID = t.runID + (done.length * b.nruns + k) ∧
      done.length * b.nruns + k ≤ b.solvers.length * b.nruns ∧ (k < b.nruns → done.length * b.nruns + k < b.solvers.length * b.nruns ∧ (owners b)[done.length * b.nruns + k]? = some s.1) ∧
      Saved pop b w0 (t.runID + 1) ((owners b).take (done.length * b.nruns + k)) t2.files := by
  cases h with
  | @mk w rest t1 _ hcfg hsol hl hk hr =>
    rw [ht] at hcfg
    obtain ⟨c0, k0⟩ := config_careful h0 [] hcfg (.nil _) (by intro s hs; simp at hs)
    rw [List.nil_append] at k0
    have hlen : b.solvers.length = done.length + 1 + rest.length := by rw [hsol]; simp; omega
    have hmul : b.solvers.length * b.nruns = done.length * b.nruns + b.nruns + rest.length * b.nruns := by rw [hlen]; ring
    have hs : s ∈ b.solvers := by rw [hsol]; simp
    obtain ⟨c1, k1, i1, fs, e1, f1⟩ := loop_fresh h0 A h2 (fun s hs => by rw [hsol]; simp [hs]) hl (by dsimp only; omega) c0 k0
    dsimp only at i1 e1 f1
    obtain ⟨c2, k2, fs', e2, f2⟩ := rounds_fresh h0 A h2 hs hr (by omega) c1 k1
    have i2 := (rounds_log hr (by omega)).1
    have ho : owners b = done.flatMap (fun s => List.replicate b.nruns s.1) ++ (List.replicate b.nruns s.1 ++ rest.flatMap (fun s => List.replicate b.nruns s.1)) := by
      unfold owners; rw [hsol, List.flatMap_append, List.flatMap_cons]
    have hol : (done.flatMap (fun s : Nat × Str => List.replicate b.nruns s.1)).length = done.length * b.nruns := by simp [List.length_flatMap]
    refine ⟨c2, k2, hs, by omega, by omega, ?_, ?_⟩
    · intro hk'
      refine ⟨by omega, ?_⟩
      rw [ho, List.getElem?_append_right (by omega), hol, Nat.add_sub_cancel_left, List.getElem?_append_left (by simpa using hk')]
      simp [hk']
    · rw [e2, e1, hf, List.nil_append]
      have : (owners b).take (done.length * b.nruns + k) = done.flatMap (fun s => List.replicate b.nruns s.1) ++ List.replicate k s.1 := by
        rw [ho, ← hol, List.take_length_add_append, List.take_append_of_le_length (by simpa using hk), List.take_replicate, Nat.min_eq_left hk]
      rw [this]
      refine Saved.append f1 ?_
      rw [hol]
      rw [i1, show t.runID + done.length * b.nruns + 1 = t.runID + 1 + done.length * b.nruns by omega] at f2
      exact f2

theorem gridPath_ne_log (path name who : Str) : gridPath path name who ≠ logPath path name := by
  intro h
  have h1 : (gridPath path name who).getLast? = some 'd' := by
    unfold gridPath replaceExtension; rw [List.getLast?_append]; rfl
  have h2 : (logPath path name).getLast? = some 'g' := by
    unfold logPath; rw [List.getLast?_append]; rfl
  rw [h, h2] at h1; cases h1

theorem cut_other (d : Files Str) (p x : Str) (n : Nat) {q : Str} (h : q ≠ p) : cut d p x n q = d q := if_neg h

theorem cut_same (d : Files Str) (p x : Str) (n : Nat) : cut d p x n p = some (x.take n) := if_pos rfl

/-- the files of the runs saved, and nothing else -/
theorem saved_files {first : Nat} {os : List Nat} {fs : List (Str × Grid F)} (hs : Saved pop b w0 first os fs) (D : PlainDir path b.name) (d : Files Str) :
    (∀ i, i < os.length → ∃ num k G, Denotes num (first + i) ∧ os[i]? = some k ∧ Bench.Fresh pop b w0 k G ∧
      saveGrids d path b.name (gridTexts fmt fs) (fileOf path b.name num) = some (IO.saveGridValues fmt G)) ∧
    ∀ q, saveGrids d path b.name (gridTexts fmt fs) q = d q ∨ ∃ i num k G, i < os.length ∧ Denotes num (first + i) ∧ os[i]? = some k ∧ Bench.Fresh pop b w0 k G ∧
      q = fileOf path b.name num ∧ saveGrids d path b.name (gridTexts fmt fs) q = some (IO.saveGridValues fmt G) := by
  have hone : ∀ i f, fs[i]? = some f → ∃ k, i < os.length ∧ Denotes f.1 (first + i) ∧ os[i]? = some k ∧ Bench.Fresh pop b w0 k f.2 ∧
      saveGrids d path b.name (gridTexts fmt fs) (fileOf path b.name f.1) = some (IO.saveGridValues fmt f.2) ∧ gridPath path b.name f.1 = fileOf path b.name f.1 := by
    intro i f hfi
    have hi : i < os.length := by rw [← hs.1]; exact (List.getElem?_eq_some_iff.1 hfi).1
    obtain ⟨k, hk⟩ : ∃ k, os[i]? = some k := ⟨_, List.getElem?_eq_getElem hi⟩
    obtain ⟨n1, n2, n3⟩ := hs.2 i k f hk hfi
    have hp := number_plain n1
    have hg := gridPath_eq D f.1 f.1 hp.1 hp.2
    refine ⟨k, hi, ⟨n1, n2⟩, hk, n3, ?_, hg⟩
    have hsp : gridTexts fmt fs = _ := texts_split (fmt := fmt) hfi
    rw [hsp, ← hg]
    refine saveGrids_last _ _ _ _ _ (f.1, _) ?_
    intro f' hf'
    unfold texts at hf'
    obtain ⟨x, hx, rfl⟩ := List.mem_map.1 hf'
    obtain ⟨j, hj, ej⟩ := List.mem_iff_getElem.1 hx
    rw [List.length_drop] at hj
    rw [List.getElem_drop] at ej
    have hj' : fs[i + 1 + j]? = some x := by rw [List.getElem?_eq_getElem (by omega), ej]
    obtain ⟨k', hk'⟩ : ∃ k, os[i + 1 + j]? = some k := ⟨_, List.getElem?_eq_getElem (by rw [← hs.1]; omega)⟩
    obtain ⟨m1, m2, _⟩ := hs.2 _ k' x hk' hj'
    have hq := number_plain m1
    dsimp only
    rw [gridPath_eq D x.1 x.1 hq.1 hq.2, hg]
    intro e
    have := fileOf_inj e
    rw [this, n2] at m2
    omega
  constructor
  · intro i hi
    obtain ⟨f, hfi⟩ : ∃ f, fs[i]? = some f := ⟨_, List.getElem?_eq_getElem (by rw [hs.1]; exact hi)⟩
    obtain ⟨k, _, h2, h3, h4, h5, _⟩ := hone i f hfi
    exact ⟨f.1, k, f.2, h2, h3, h4, h5⟩
  · intro q
    by_cases hq : ∃ f ∈ gridTexts fmt fs, gridPath path b.name f.1 = q
    · obtain ⟨f, hf, rfl⟩ := hq
      obtain ⟨x, hx, rfl⟩ := List.mem_map.1 hf
      obtain ⟨i, hi, rfl⟩ := List.mem_iff_getElem.1 hx
      obtain ⟨k, h1, h2, h3, h4, h5, h6⟩ := hone i fs[i] (List.getElem?_eq_getElem hi)
      right
      refine ⟨i, _, k, _, h1, h2, h3, h4, h6, ?_⟩
      dsimp only
      rw [h6]; exact h5
    · left
      exact saveGrids_other _ _ _ _ _ (fun f hf e => hq ⟨f, hf, e⟩)

theorem fileOf_ne_log (D : PlainDir path b.name) {num : Str} {n : Nat} (h : Denotes num n) : fileOf path b.name num ≠ logPath path b.name := by
  have hp := number_plain h.1
  rw [← gridPath_eq D num num hp.1 hp.2]
  exact gridPath_ne_log _ _ _

/-- **C109** (the grids): if the grid of every run is saved and the program ends at any moment, with `m` runs finished, then every finished run has its file with the complete result, that of
a new solver on a new grid; any other file is as before, except that of the run in progress and, after all runs, the log, which hold a beginning of their text
(conditions as in `C45_results_partial`). -/
theorem _root_.FMV.C109_grids_partial (h0 : NewWorld w0) (A : Apart b w0) (h2 : b.saveGrid = 2) (ht : t.w = w0) (hf : t.files = [])
    (hb : t.runID + b.solvers.length * b.nruns < 2^32) (D : PlainDir path b.name) (h : Left pop b time path fmt t d m d') :
    m ≤ b.solvers.length * b.nruns ∧
    (∀ i, i < m → ∃ num k G, Denotes num (t.runID + 1 + i) ∧ (b.solvers.flatMap (fun s => List.replicate b.nruns s.1))[i]? = some k ∧ Bench.Fresh pop b w0 k G ∧
      d' (fileOf path b.name num) = some (IO.saveGridValues fmt G)) ∧
    ∀ q, d' q = d q ∨
      (∃ i num k G, i < m ∧ Denotes num (t.runID + 1 + i) ∧ (b.solvers.flatMap (fun s => List.replicate b.nruns s.1))[i]? = some k ∧ Bench.Fresh pop b w0 k G ∧
        q = fileOf path b.name num ∧ d' q = some (IO.saveGridValues fmt G)) ∨
      (∃ num k G x, m < b.solvers.length * b.nruns ∧ Denotes num (t.runID + 1 + m) ∧ (b.solvers.flatMap (fun s => List.replicate b.nruns s.1))[m]? = some k ∧
        Bench.Fresh pop b w0 k G ∧ q = fileOf path b.name num ∧ x <+: IO.saveGridValues fmt G ∧ d' q = some x) ∨
      (∃ t' x, m = b.solvers.length * b.nruns ∧ Runs pop b time t t' ∧ q = path ++ '/' :: b.name ++ ".log".toList ∧ x <+: t'.log ∧ d' q = some x) := by
  have hol : (owners b).length = b.solvers.length * b.nruns := by unfold owners; simp [List.length_flatMap]
  -- files of the finished runs in terms of all runs
  have conv : ∀ {m : Nat} {fs : List (Str × Grid F)}, m ≤ b.solvers.length * b.nruns → Saved pop b w0 (t.runID + 1) ((owners b).take m) fs →
      (∀ i, i < m → ∃ num k G, Denotes num (t.runID + 1 + i) ∧ (owners b)[i]? = some k ∧ Bench.Fresh pop b w0 k G ∧
        saveGrids d path b.name (gridTexts fmt fs) (fileOf path b.name num) = some (IO.saveGridValues fmt G)) ∧
      ∀ q, saveGrids d path b.name (gridTexts fmt fs) q = d q ∨ ∃ i num k G, i < m ∧ Denotes num (t.runID + 1 + i) ∧ (owners b)[i]? = some k ∧ Bench.Fresh pop b w0 k G ∧
        q = fileOf path b.name num ∧ saveGrids d path b.name (gridTexts fmt fs) q = some (IO.saveGridValues fmt G) := by
    intro m fs hm hs
    obtain ⟨c1, c2⟩ := saved_files (fmt := fmt) hs D d
    have hl : ((owners b).take m).length = m := by rw [List.length_take, hol]; omega
    rw [hl] at c1 c2
    refine ⟨fun i hi => ?_, fun q => ?_⟩
    · obtain ⟨num, k, G, g1, g2, g3⟩ := c1 i hi
      rw [List.getElem?_take_of_lt hi] at g2
      exact ⟨num, k, G, g1, g2, g3⟩
    · rcases c2 q with h | ⟨i, num, k, G, hi, g1, g2, g3⟩
      · exact .inl h
      · rw [List.getElem?_take_of_lt hi] at g2
        exact .inr ⟨i, num, k, G, hi, g1, g2, g3⟩
  cases h with
  | before => exact ⟨Nat.zero_le _, fun i hi => by omega, fun q => .inl rfl⟩
  | @computing done s k t2 hr =>
    obtain ⟨_, _, _, _, hle, _, hsv⟩ := reached h0 A h2 ht hf hb hr
    obtain ⟨c1, c2⟩ := conv hle hsv
    refine ⟨hle, c1, fun q => ?_⟩
    rcases c2 q with h | h
    · exact .inl h
    · exact .inr (.inl h)
  | @savingRun done s k t2 t3 n hr hk h3 _ =>
    obtain ⟨hc, hh, hs, hid, hle, hlt, hsv⟩ := reached h0 A h2 ht hf hb hr
    obtain ⟨c1, c2⟩ := conv hle hsv
    obtain ⟨hlt, how⟩ := hlt hk
    obtain ⟨_, _, hfr⟩ := round_fresh h0 A hs h3 hc hh
    have hid3 : t3.runID = t.runID + 1 + (done.length * b.nruns + k) := by
      cases h3 with
      | mk w1 w2 _ _ =>
        show u32 (t2.runID + 1) = _
        unfold u32; rw [Nat.mod_eq_of_lt (by omega)]; omega
    have hden : Denotes (formatID t3.runID) (t.runID + 1 + (done.length * b.nruns + k)) := by
      rw [← hid3]; exact ⟨padded_number _ _, read_padded _ _⟩
    have hp := number_plain hden.1
    have hg := gridPath_eq D _ _ hp.1 hp.2
    rw [hg]
    have hne : ∀ i num, i < done.length * b.nruns + k → Denotes num (t.runID + 1 + i) → fileOf path b.name num ≠ fileOf path b.name (formatID t3.runID) := by
      intro i num hi hn e
      have := fileOf_inj e
      subst this
      have h1 := hn.2; have h2 := hden.2
      rw [h1] at h2; omega
    refine ⟨hle, fun i hi => ?_, fun q => ?_⟩
    · obtain ⟨num, k', G, g1, g2, g3, g4⟩ := c1 i hi
      exact ⟨num, k', G, g1, g2, g3, by rw [cut_other _ _ _ _ (hne i num hi g1)]; exact g4⟩
    · by_cases hq : q = fileOf path b.name (formatID t3.runID)
      · subst hq
        exact .inr (.inr (.inl ⟨_, s.1, _, _, hlt, hden, how, hfr, rfl, List.take_prefix n _, cut_same _ _ _ _⟩))
      · rw [cut_other _ _ _ _ hq]
        rcases c2 q with h | h
        · exact .inl h
        · exact .inr (.inl h)
  | savingSolver n _ h1 => omega
  | @savingLog t' n hr =>
    have hsv := C45_results_partial h0 A h2 t t' ht hf hr hb
    have hsv' : Saved pop b w0 (t.runID + 1) ((owners b).take (b.solvers.length * b.nruns)) t'.files := by
      rw [List.take_of_length_le (by rw [hol])]; exact hsv
    obtain ⟨c1, c2⟩ := conv (le_refl _) hsv'
    refine ⟨le_refl _, fun i hi => ?_, fun q => ?_⟩
    · obtain ⟨num, k', G, g1, g2, g3, g4⟩ := c1 i hi
      exact ⟨num, k', G, g1, g2, g3, by rw [cut_other _ _ _ _ (fileOf_ne_log D g1)]; exact g4⟩
    · by_cases hq : q = logPath path b.name
      · subst hq
        exact .inr (.inr (.inr ⟨t', _, rfl, hr, rfl, List.take_prefix n _, cut_same _ _ _ _⟩))
      · rw [cut_other _ _ _ _ hq]
        rcases c2 q with h | h
        · exact .inl h
        · exact .inr (.inl h)

/-- **C109**, what fails: the times measured are on the disk only at the end.  Whenever the program ends before all runs are finished, the log file is the one there was before (none, or that
of an earlier benchmark), however many runs are finished; and it can end so that the old log is gone and nothing of the new one is there. -/
theorem _root_.FMV.C109_refuted_log (path : Str) (fmt : F → Str) (t : Bench.St F) (d : Files Str) :
    (∀ (done : List (Nat × Str)) (s : Nat × Str) (k : Nat) (t2 : Bench.St F), Reached pop b time t done s k t2 → ∃ d', Left pop b time path fmt t d (done.length * b.nruns + k) d') ∧
    (∀ m d', m < b.solvers.length * b.nruns → Left pop b time path fmt t d m d' → d' (path ++ '/' :: b.name ++ ".log".toList) = d (path ++ '/' :: b.name ++ ".log".toList)) ∧
    ∀ t', Runs pop b time t t' → ∃ d', Left pop b time path fmt t d (b.solvers.length * b.nruns) d' ∧ d' (path ++ '/' :: b.name ++ ".log".toList) = some [] := by
  have hg : ∀ (fs : List (Str × Grid F)), saveGrids d path b.name (gridTexts fmt fs) (logPath path b.name) = d (logPath path b.name) :=
    fun fs => saveGrids_other _ _ _ _ _ (fun f _ => gridPath_ne_log _ _ _)
  refine ⟨fun done s k t2 h => ⟨_, .computing h⟩, ?_, fun t' h => ⟨_, .savingLog 0 h, ?_⟩⟩
  · intro m d' hm h
    show d' (logPath path b.name) = d (logPath path b.name)
    cases h with
    | before => rfl
    | computing hr => exact hg _
    | savingRun n hr hk h3 _ => rw [cut_other _ _ _ _ (Ne.symm (gridPath_ne_log _ _ _))]; exact hg _
    | savingSolver n hr _ => rw [cut_other _ _ _ _ (Ne.symm (gridPath_ne_log _ _ _))]; exact hg _
    | savingLog n hr => exact absurd hm (lt_irrefl _)
  · show cut _ (logPath path b.name) _ 0 (logPath path b.name) = some []
    rw [cut_same]; rfl

/-! ### running it again -/

theorem rounds_names (h2 : b.saveGrid = 2) {s : Nat × Str} {n : Nat} {t t' : Bench.St F} (h : Rounds pop b time s n t t') (hb : t.runID + n < 2^32) :
    t'.runID = t.runID + n ∧ t'.files.map Prod.fst = t.files.map Prod.fst ++ (List.range' (t.runID + 1) n).map formatID := by
  induction h with
  | zero => simp
  | @succ n t t1 t2 h1 _ ih =>
    cases h1 with
    | mk w1 w2 h1 h3 =>
      have hu : u32 (t.runID + 1) = t.runID + 1 := by unfold u32; rw [Nat.mod_eq_of_lt (by omega)]
      rw [hu] at ih
      obtain ⟨e1, e2⟩ := ih (by dsimp only; omega)
      dsimp only at e1 e2
      refine ⟨by omega, ?_⟩
      rw [e2, if_pos h2, List.range'_succ]
      simp

theorem loop_names (h2 : b.saveGrid = 2) {l : List (Nat × Str)} {t t' : Bench.St F} (h : Loop pop b time l t t') (hb : t.runID + l.length * b.nruns < 2^32) :
    t'.runID = t.runID + l.length * b.nruns ∧ t'.files.map Prod.fst = t.files.map Prod.fst ++ (List.range' (t.runID + 1) (l.length * b.nruns)).map formatID := by
  induction h with
  | nil => simp
  | @cons s l t t1 t2 w h1 h3 _ ih =>
    rw [List.length_cons, Nat.add_mul, Nat.one_mul] at hb ⊢
    obtain ⟨e1, e2⟩ := rounds_names h2 h1 (by omega)
    obtain ⟨e3, e4⟩ := ih (by dsimp only; omega)
    dsimp only at e3 e4
    rw [if_neg (by omega)] at e4
    refine ⟨by omega, ?_⟩
    rw [e4, e2, e1, Nat.add_comm (l.length * b.nruns), ← List.range'_append_1, List.map_append, List.append_assoc,
      show t.runID + b.nruns + 1 = t.runID + 1 + b.nruns by omega]

theorem saveGrids_over {α : Type} (path name : Str) (l : List (Str × α)) : ∀ (d d' : Files α) (q : Str), (d q = d' q ∨ ∃ f ∈ l, gridPath path name f.1 = q) →
    saveGrids d path name l q = saveGrids d' path name l q := by
  induction l with
  | nil => intro d d' q h; rcases h with h | ⟨f, hf, _⟩; exacts [h, by cases hf]
  | cons f l ih =>
    intro d d' q h
    show saveGrids (d.write _ _) path name l q = saveGrids (d'.write _ _) path name l q
    apply ih
    unfold Files.write
    by_cases hq : q = gridPath path name f.1
    · left; rw [if_pos hq, if_pos hq]
    · rw [if_neg hq, if_neg hq]
      rcases h with h | ⟨f', hf', e⟩
      · exact .inl h
      · rcases List.mem_cons.1 hf' with rfl | h
        · exact absurd e.symm hq
        · exact .inr ⟨f', h, e⟩

/-- the files after a complete run of the benchmark that saves its log (benchmark.hpp:107-190) -/
def after (path : Str) (fmt : F → Str) (b : Bench) (t' : Bench.St F) (d : Files Str) : Files Str :=
  (saveGrids d path b.name (gridTexts fmt t'.files)).write (logPath path b.name) t'.log

/-- **C109** (running it again): if the grid of every run is saved, an interrupted benchmark leaves no trace once it is run again from its start: all files are then as if it had not been
interrupted. -/
theorem _root_.FMV.C109_again (h2 : b.saveGrid = 2) (hb : t.runID + b.solvers.length * b.nruns < 2^32) (h : Left pop b time path fmt t d m d')
    (hf : t.files = []) (t' : Bench.St F) (hr : Runs pop b time t t') : after path fmt b t' d' = after path fmt b t' d := by
  obtain ⟨w, hcfg, hl⟩ := hr
  have hn := (loop_names h2 hl hb).2
  dsimp only at hn
  rw [hf, List.map_nil, List.nil_append] at hn
  have hmem : ∀ r, t.runID < r → r ≤ t.runID + b.solvers.length * b.nruns → ∃ f ∈ gridTexts fmt t'.files, gridPath path b.name f.1 = gridPath path b.name (formatID r) := by
    intro r h1 h2
    have : formatID r ∈ t'.files.map Prod.fst := by
      rw [hn]
      exact List.mem_map.2 ⟨r, by rw [List.mem_range'_1]; omega, rfl⟩
    obtain ⟨f, hf, e⟩ := List.mem_map.1 this
    exact ⟨(f.1, IO.saveGridValues fmt f.2), List.mem_map.2 ⟨f, hf, rfl⟩, by dsimp only; rw [e]⟩
  -- the files of a reached state
  have hreach : ∀ {done : List (Nat × Str)} {s : Nat × Str} {k : Nat} {t2 : Bench.St F}, Reached pop b time t done s k t2 →
      t2.runID = t.runID + (done.length * b.nruns + k) ∧ (k < b.nruns → done.length * b.nruns + k < b.solvers.length * b.nruns) ∧
      ∀ q, saveGrids d path b.name (gridTexts fmt t2.files) q = d q ∨ ∃ f ∈ gridTexts fmt t'.files, gridPath path b.name f.1 = q := by
    intro done s k t2 hr
    cases hr with
    | @mk w rest t1 _ hcfg hsol hl hk hr =>
      have hlen : b.solvers.length = done.length + 1 + rest.length := by rw [hsol]; simp; omega
      have hmul : b.solvers.length * b.nruns = done.length * b.nruns + b.nruns + rest.length * b.nruns := by rw [hlen]; ring
      obtain ⟨e1, e2⟩ := loop_names h2 hl (by dsimp only; omega)
      dsimp only at e1 e2
      obtain ⟨e3, e4⟩ := rounds_names h2 hr (by omega)
      refine ⟨by omega, fun _ => by omega, fun q => ?_⟩
      by_cases hq : ∃ f ∈ gridTexts fmt t2.files, gridPath path b.name f.1 = q
      · right
        obtain ⟨f, hf', rfl⟩ := hq
        obtain ⟨x, hx, rfl⟩ := List.mem_map.1 hf'
        have : x.1 ∈ t2.files.map Prod.fst := List.mem_map.2 ⟨x, hx, rfl⟩
        rw [e4, e2, hf, List.map_nil, List.nil_append, List.mem_append, List.mem_map, List.mem_map] at this
        have hr' : ∃ r, t.runID < r ∧ r ≤ t.runID + b.solvers.length * b.nruns ∧ formatID r = x.1 := by
          rcases this with ⟨r, hr, e⟩ | ⟨r, hr, e⟩ <;> rw [List.mem_range'_1] at hr
          · exact ⟨r, by omega, by omega, e⟩
          · exact ⟨r, by omega, by omega, e⟩
        obtain ⟨r, h1, h2, e⟩ := hr'
        dsimp only
        rw [← e]
        exact hmem r h1 h2
      · exact .inl (saveGrids_other _ _ _ _ _ (fun f hf e => hq ⟨f, hf, e⟩))
  have key : ∀ q, q ≠ logPath path b.name → (d' q = d q ∨ ∃ f ∈ gridTexts fmt t'.files, gridPath path b.name f.1 = q) := by
    intro q hq
    cases h with
    | before => exact .inl rfl
    | computing hr => exact (hreach hr).2.2 q
    | @savingRun done s k t2 t3 n hr hk h3 _ =>
      obtain ⟨e1, e2, e3⟩ := hreach hr
      have e2 := e2 hk
      by_cases hc : q = gridPath path b.name (formatID t3.runID)
      · right
        rw [hc]
        cases h3 with
        | mk w1 w2 _ _ =>
          have hu : u32 (t2.runID + 1) = t2.runID + 1 := by unfold u32; rw [Nat.mod_eq_of_lt (by omega)]
          dsimp only
          rw [hu]
          exact hmem _ (by omega) (by omega)
      · rw [cut_other _ _ _ _ hc]; exact e3 q
    | savingSolver n hr h1 => omega
    | @savingLog t'' n hr =>
      rw [cut_other _ _ _ _ hq]
      obtain ⟨w', hcfg', hl'⟩ := hr
      have hn' := (loop_names h2 hl' hb).2
      dsimp only at hn'
      rw [hf, List.map_nil, List.nil_append, ← hn] at hn'
      by_cases hx : ∃ f ∈ gridTexts fmt t''.files, gridPath path b.name f.1 = q
      · right
        obtain ⟨f, hf', rfl⟩ := hx
        obtain ⟨x, hx, rfl⟩ := List.mem_map.1 hf'
        have : x.1 ∈ t'.files.map Prod.fst := by rw [← hn']; exact List.mem_map.2 ⟨x, hx, rfl⟩
        obtain ⟨y, hy, e⟩ := List.mem_map.1 this
        exact ⟨_, List.mem_map.2 ⟨y, hy, rfl⟩, by dsimp only; rw [e]⟩
      · exact .inl (saveGrids_other _ _ _ _ _ (fun f hf e => hx ⟨f, hf, e⟩))
  funext q
  unfold after Files.write
  by_cases hq : q = logPath path b.name
  · rw [if_pos hq, if_pos hq]
  · rw [if_neg hq, if_neg hq]
    exact saveGrids_over _ _ _ _ _ _ (key q hq)

/-! ### one grid per solver -/

theorem loop_last (h0 : NewWorld w0) (A : Apart b w0) (h1 : b.saveGrid = 1) (hn : b.nruns ≠ 0) {l : List (Nat × Str)} {t t' : Bench.St F} (hsub : ∀ s ∈ l, s ∈ b.solvers)
    (hl : Loop pop b time l t t') (hc : CarefulCalls false pop w0 t.w) (hh : Has b b.solvers t.w) : CarefulCalls false pop w0 t'.w ∧ Has b b.solvers t'.w ∧
      ∃ fs, t'.files = t.files ++ fs ∧ List.Forall₂ (fun (s : Nat × Str) (f : Str × Grid F) => f.1 = s.2 ∧ Bench.Fresh pop b w0 s.1 f.2) l fs := by
  induction hl with
  | nil => exact ⟨hc, hh, [], by simp, .nil⟩
  | @cons s l t t1 t2 w h3 h4 _ ih =>
    have hs := hsub s (by simp)
    obtain ⟨c1, k1, e, f⟩ := rounds_last h0 A (by omega) hs h3 hc hh
    have c2 : CarefulCalls false pop w0 w := .snoc _ c1 (by
      rintro ⟨m, hm⟩
      rw [kind_of h0 c1] at hm
      exact absurd ⟨m, hm⟩ (A.lsm s hs)) h4
    have k2 : Has b b.solvers w := k1.does (by intro k p g hcon; cases hcon) h4
    obtain ⟨c3, k3, fs', e', f'⟩ := ih (fun s hs => hsub s (by simp [hs])) c2 k2
    dsimp only at e' f'
    rw [if_pos h1, e, List.append_assoc] at e'
    exact ⟨c3, k3, _ :: fs', e', .cons ⟨rfl, f hn⟩ f'⟩

/-- the files of the first solvers, whose names differ in more than the extension -/
theorem solver_files {l : List (Nat × Str)} {fs : List (Str × Grid F)} (hall : List.Forall₂ (fun (s : Nat × Str) (f : Str × Grid F) => f.1 = s.2 ∧ Bench.Fresh pop b w0 s.1 f.2) l fs)
    (hpre : l <+: b.solvers) (D : PlainDir path b.name) (d : Files Str) (hplain : ∀ s ∈ b.solvers, PlainName s.2)
    (hdiff : ∀ (i j : Nat) (s s' : Nat × Str) st, b.solvers[i]? = some s → b.solvers[j]? = some s' → Stem s.2 st → Stem s'.2 st → i = j)
    (i : Nat) (hi : i < l.length) (s : Nat × Str) (hs : b.solvers[i]? = some s) (st : Str) (hst : Stem s.2 st) :
    ∃ G, Bench.Fresh pop b w0 s.1 G ∧ saveGrids d path b.name (gridTexts fmt fs) (fileOf path b.name st) = some (IO.saveGridValues fmt G) := by
  rw [List.forall₂_iff_get] at hall
  obtain ⟨hl, hg⟩ := hall
  have hel : ∀ i (hi : i < l.length), b.solvers[i]? = some l[i] := fun i hi => by
    rw [← List.getElem?_eq_getElem hi]
    exact (List.prefix_iff_getElem?.1 hpre i hi).trans (List.getElem?_eq_getElem hi).symm
  obtain ⟨e1, e2⟩ := hg i hi (by omega)
  simp only [List.get_eq_getElem] at e1 e2
  have hsi : l[i] = s := by rw [hel i hi] at hs; exact Option.some.inj hs
  rw [hsi] at e1 e2
  refine ⟨_, e2, ?_⟩
  have hfi : fs[i]? = some fs[i] := List.getElem?_eq_getElem (by omega)
  have hsp : gridTexts fmt fs = _ := texts_split (fmt := fmt) hfi
  rw [hsp, ← gridPath_eq D _ st (hplain _ (List.mem_of_getElem? hs)) hst, ← e1]
  refine saveGrids_last _ _ _ _ _ (fs[i].1, _) ?_
  intro f' hf'
  unfold texts at hf'
  obtain ⟨x, hx, rfl⟩ := List.mem_map.1 hf'
  obtain ⟨j, hj, ej⟩ := List.mem_iff_getElem.1 hx
  rw [List.length_drop] at hj
  rw [List.getElem_drop] at ej
  have hjl : i + 1 + j < l.length := by omega
  obtain ⟨m1, _⟩ := hg (i + 1 + j) hjl (by omega)
  simp only [List.get_eq_getElem] at m1
  rw [ej] at m1
  obtain ⟨st', hst'⟩ := stem_exists (l[i + 1 + j]).2
  dsimp only
  rw [m1, e1, gridPath_eq D _ st' (hplain _ (List.mem_of_getElem? (hel _ hjl))) hst', gridPath_eq D _ st (hplain _ (List.mem_of_getElem? hs)) hst]
  intro e
  have := fileOf_inj e
  subst this
  have := hdiff i (i + 1 + j) _ _ st' hs (hel _ hjl) hst hst'
  omega

/-- **C109** (one grid per solver): if the last grid of every solver is saved and the program ends at any moment, then every solver after whose last run another run is finished
has its file with the complete result (conditions as in `C78_solver_files_partial`). -/
theorem _root_.FMV.C109_solvers_partial (h0 : NewWorld w0) (A : Apart b w0) (h1 : b.saveGrid = 1) (hn : b.nruns ≠ 0) (ht : t.w = w0) (hf : t.files = [])
    (D : PlainDir path b.name) (hplain : ∀ s ∈ b.solvers, PlainName s.2)
    (hdiff : ∀ (i j : Nat) (s s' : Nat × Str) st, b.solvers[i]? = some s → b.solvers[j]? = some s' → Stem s.2 st → Stem s'.2 st → i = j)
    (h : Left pop b time path fmt t d m d') (i : Nat) (s : Nat × Str) (hs : b.solvers[i]? = some s) (hm : (i + 1) * b.nruns < m) (st : Str) (hst : Stem s.2 st) :
    ∃ G, Bench.Fresh pop b w0 s.1 G ∧ d' (fileOf path b.name st) = some (IO.saveGridValues fmt G) := by
  have hg : gridPath path b.name s.2 = fileOf path b.name st := gridPath_eq D _ st (hplain _ (List.mem_of_getElem? hs)) hst
  have hreach : ∀ {done : List (Nat × Str)} {s' : Nat × Str} {k : Nat} {t2 : Bench.St F}, Reached pop b time t done s' k t2 → (i + 1) * b.nruns < done.length * b.nruns + k →
      b.solvers[done.length]? = some s' ∧ i < done.length ∧
      ∃ G, Bench.Fresh pop b w0 s.1 G ∧ saveGrids d path b.name (gridTexts fmt t2.files) (fileOf path b.name st) = some (IO.saveGridValues fmt G) := by
    intro done s' k t2 hr hlt
    cases hr with
    | @mk w rest t1 _ hcfg hsol hl hk hr =>
      rw [ht] at hcfg
      obtain ⟨c0, k0⟩ := config_careful h0 [] hcfg (.nil _) (by intro s hs; simp at hs)
      rw [List.nil_append] at k0
      obtain ⟨c1, k1, fs, e1, f1⟩ := loop_last h0 A h1 hn (fun s hs => by rw [hsol]; simp [hs]) hl c0 k0
      obtain ⟨_, _, e2, _⟩ := rounds_last h0 A (by omega) (by rw [hsol]; simp) hr c1 k1
      dsimp only at e1
      rw [hf, List.nil_append] at e1
      have hi : i < done.length := by
        by_contra hcon
        have : (done.length + 1) * b.nruns ≤ (i + 1) * b.nruns := Nat.mul_le_mul_right _ (by omega)
        rw [Nat.add_mul, Nat.one_mul] at this
        omega
      refine ⟨by rw [hsol]; simp, hi, ?_⟩
      rw [e2, e1]
      exact solver_files f1 (by rw [hsol]; exact List.prefix_append _ _) D d hplain hdiff i hi s hs st hst
  cases h with
  | before => omega
  | computing hr => exact (hreach hr hm).2.2
  | savingRun n hr hk h3 h2 => omega
  | @savingSolver done s' t2 n hr _ =>
    obtain ⟨h3, h4, G, h5, h6⟩ := hreach hr hm
    refine ⟨G, h5, ?_⟩
    rw [cut_other]
    · exact h6
    · obtain ⟨st', hst'⟩ := stem_exists s'.2
      rw [gridPath_eq D _ st' (hplain _ (List.mem_of_getElem? h3)) hst']
      intro e
      have := fileOf_inj e
      subst this
      have := hdiff i _ _ _ st hs h3 hst hst'
      omega
  | @savingLog t' n hr =>
    have hall := C45_last_results_partial h0 A h1 hn t t' ht hf hr
    obtain ⟨G, h5, h6⟩ := solver_files (fmt := fmt) hall (List.prefix_refl _) D d hplain hdiff i (List.getElem?_eq_some_iff.1 hs).1 s hs st hst
    refine ⟨G, h5, ?_⟩
    rw [cut_other]
    · exact h6
    · rw [← hg]; exact gridPath_ne_log _ _ _

/-- the benchmark of the example: one FMM, two runs, on a 2 x 2 grid of speed 1 -/
def exBench : Bench := ⟨[(0, "FMM".toList)], [0], noGoal, 2, 2, "bm".toList⟩
/-- its world -/
noncomputable def exWorld : World XR := ⟨Grid.create [2,2] (XR.fin 1) (0,0), fun _ => Obj.new (.fmm false .none) ⟨0, fun _ => XR.fin 0, [], [], XR.fin 0, XR.fin 0⟩⟩

/-- non-vacuity: the benchmark gets through its first run of two -/
theorem exReached : ∃ t2, Reached FMM.IsTop exBench (fun _ => "0".toList) ⟨exWorld, 0, [], []⟩ [] (0, "FMM".toList) 1 t2 := by
  let g : Grid XR := Grid.create [2,2] (XR.fin 1) (0,0)
  let w0 : World XR := ⟨g, fun _ => Obj.new (.fmm false .none) ⟨0, fun _ => XR.fin 0, [], [], XR.fin 0, XR.fin 0⟩⟩
  have hfree : ∀ j, g.occ j = false := by
    intro j
    show decide ((1:ℝ) < XR.eps) = false
    unfold XR.eps; simp; norm_num
  have hpop : ∀ s : FMM.St XR, s.heap ≠ [] → ∃ x ∈ s.heap, FMM.IsTop s x := fun s hs => by
      obtain ⟨x, hx, hmin⟩ := FMM.exists_min XR.ltLaws (fun y => (s.g.cells y).total) s.heap hs
      exact ⟨x, hx, hx, hmin⟩
  have hcg : g.cleanGrid = g := rfl
  have d1 := Does.setEnvironment (pop := FMM.IsTop) w0 0
  have d2 := Does.setPoints (pop := FMM.IsTop) (w0.put 0 w0.grid.cleanGrid ((w0.obj 0).setEnvironment w0.grid.cleanGrid)) 0 [0] noGoal
  generalize hw2 : World.put (w0.put 0 w0.grid.cleanGrid ((w0.obj 0).setEnvironment w0.grid.cleanGrid)) 0 _ _ = w2 at d2
  have d3 := Does.reset (pop := FMM.IsTop) w2 0
  have hg2 : w2.grid = g := by rw [← hw2]; rfl
  have ho2 : w2.obj 0 = (w0.obj 0).setPoints [0] noGoal := by rw [← hw2, put_self]; rfl
  have hr : (w2.obj 0).reset w2.grid = (g, (w0.obj 0).setPoints [0] noGoal) := by rw [ho2, hg2]; rfl
  rw [hr] at d3
  have hsan : ((w0.obj 0).setPoints [0] noGoal).sanityChecks g = 0 := (sanity_iff _ _).2 ⟨rfl, by decide, fun p _ => hfree p, fun h => absurd rfl h, by decide⟩
  obtain ⟨oo, o1, o2, o3, o4, _⟩ := fmm_setup g (o := (w0.obj 0).setPoints [0] noGoal) (d := false) (hh := .none) rfl
  obtain ⟨G, o', h5⟩ := fmm_returns FMM.IsTop hpop (o := oo) o2 o3 (dims := [2,2]) (g := g.setClean false)
      ⟨⟨by simp, by simp, by norm_num⟩, rfl, by rw [o4]; intro p hp; have : p = 0 := by simpa [Obj.setPoints] using hp
                                                subst this; decide⟩
  have d4 := Does.computeSetup (pop := FMM.IsTop) (w2.put 0 g ((w0.obj 0).setPoints [0] noGoal)) 0 (g.setClean false) oo G o'
    (by rw [put_self]; rfl) (by rw [put_self, put_grid]; unfold Obj.setup; rw [if_pos hsan, o1]) h5
  exact ⟨_, .mk (.cons d1 d2 (.nil _)) rfl (.nil _) (by decide) (.succ (.mk _ _ _ d3 d4) (.zero _))⟩

theorem exNew : NewWorld exWorld := ⟨rfl, fun _ => ⟨_, _, rfl⟩⟩

theorem exApart : Apart exBench exWorld where
  lsm := by
    rintro s _ ⟨m, h⟩
    have h : (Kind.fmm false .none : Kind XR) = .lsm m := h
    cases h
  ddqm := by
    intro s _ h
    have h : (Kind.fmm false .none : Kind XR) = .ddqm := h
    cases h
  star := by
    rintro s _ ⟨d, h, e, e'⟩
    have e : (Kind.fmm false .none : Kind XR) = .fmm d h := e
    cases e
    exact absurd rfl e'

/-- after its first run, an interruption finds the result of this run on the disk, but its time is not in the log file: that is the old one, for every content of the disk before -/
example (d : Files Str) (fmt : XR → Str) : ∃ d' num, Left FMM.IsTop exBench (fun _ => "0".toList) "results".toList fmt ⟨exWorld, 0, [], []⟩ d 1 d' ∧
    Denotes num 1 ∧ (∃ G, d' (fileOf "results".toList "bm".toList num) = some (IO.saveGridValues fmt G)) ∧ d' "results/bm.log".toList = d "results/bm.log".toList := by
  obtain ⟨t2, h⟩ := exReached
  obtain ⟨r1, r2, -⟩ := C109_refuted_log (pop := FMM.IsTop) (b := exBench) (time := fun _ => "0".toList) "results".toList fmt ⟨exWorld, 0, [], []⟩ d
  obtain ⟨d', hd⟩ := r1 _ _ _ _ h
  obtain ⟨-, g, -⟩ := C109_grids_partial exNew exApart rfl rfl rfl (by decide) ⟨by decide, by decide, by decide, by decide⟩ hd
  obtain ⟨num, k, G, g1, -, -, g2⟩ := g 0 (by decide)
  exact ⟨d', num, hd, g1, ⟨G, g2⟩, r2 1 d' (by decide) hd⟩

end FMV.Crash
