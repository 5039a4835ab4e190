import Verif.Props.Program
import Verif.Props.CFGBad
/-!
# C68: how `fm_benchmark` ends when something is wrong
-/
namespace FMV.Program
open Arith Console CFG Spec Shape
variable {F : Type} [Arith F]

/-- **C68**: a configuration without a start point ends the program with an exception. -/
theorem _root_.FMV.C68_no_start (E : Env F) (f : CfgFile) (hcfg : E.cfg = some f) (argc : Nat) (ha : 2 ≤ argc) (hs : f.set "problem.start".toList = none) (o : End F) :
    Main E argc o ↔ o = .throws := by
  unfold Main
  rw [if_neg (by omega), hcfg]
  dsimp only
  rw [if_pos hs]

/-- **C68**: a number of dimensions, of runs or of grids to save that is not a number ends the program with an exception. -/
theorem _root_.FMV.C68_bad_number (E : Env F) (f : CfgFile) (hcfg : E.cfg = some f) (argc : Nat) (ha : 2 ≤ argc) (hc : Says f "grid.cell" "FMCell".toList "FMCell".toList)
    (hbad : (∃ s, Says f "grid.ndims" "2".toList s ∧ E.lex.uns s = none) ∨
      ((∃ s, Says f "grid.ndims" "2".toList s ∧ (E.lex.uns s = some 2 ∨ E.lex.uns s = some 3)) ∧
        ((∃ s, Says f "benchmark.runs" "10".toList s ∧ E.lex.uns s = none) ∨ ∃ s, Says f "benchmark.savegrid" "0".toList s ∧ E.lex.uns s = none))) (o : End F) :
    Main E argc o ↔ o = .throws := by
  by_cases hs : f.set "problem.start".toList = none
  · exact C68_no_start E f hcfg argc ha hs o
  unfold Main
  rw [if_neg (by omega), hcfg]
  dsimp only
  rw [if_neg hs, if_neg (by rw [text_of hc rfl]; simp)]
  rcases hbad with ⟨s, h1, h2⟩ | ⟨⟨s, h1, h2⟩, h3⟩
  · rw [text_of h1 rfl, h2]
  · rw [text_of h1 rfl]
    have key : ∀ nd, Configure E f nd o ↔ o = .throws := by
      intro nd
      unfold Configure
      dsimp only
      rcases h3 with ⟨s, k1, k2⟩ | ⟨s, k1, k2⟩
      · rw [text_of k1 rfl, k2]
        split
        · next h => cases h
        · exact Iff.rfl
      · rw [text_of k1 rfl, k2]
    rcases h2 with h2 | h2 <;> rw [h2] <;> exact key _

/-- **C68**: an image that cannot be read ends the program with an exception. -/
theorem _root_.FMV.C68_bad_image (E : Env F) (f : CfgFile) (hcfg : E.cfg = some f) (argc : Nat) (ha : 2 ≤ argc) (nd : Nat) (h : F) (start : List Nat) (goal : Option (List Nat))
    (nr sg : Nat) (name : Str) (D : Settings E f nd h start goal nr sg name) (path : Str) (hp : f.set "grid.file".toList = some path) (him : E.img path = none) (ms : List (Made F))
    (hl : (readSolvers f.unr).length = ms.length)
    (hr : ∀ i (h1 : i < (readSolvers f.unr).length) (h2 : i < ms.length), ∀ o, Round E.lex (readSolvers f.unr)[i].1 (readSolvers f.unr)[i].2 o ↔ o = .add ms[i]) (o : End F) :
    Main E argc o ↔ o = .throws := by
  rw [main_reaches E f hcfg argc ha D ms hl hr o]
  have hg : makeGrid E (options E.stem f) nd = .error .throws := by
    unfold makeGrid
    have e1 : options E.stem f "grid.file".toList = some path := by unfold options; rw [hp]
    rw [e1]
    dsimp only
    rw [him]
  unfold problem
  rw [hg]

/-- **C68**: a text map that cannot be read ends the program with the exit code 1. -/
theorem _root_.FMV.C68_bad_text_map (E : Env F) (f : CfgFile) (hcfg : E.cfg = some f) (argc : Nat) (ha : 2 ≤ argc) (nd : Nat) (h : F) (start : List Nat) (goal : Option (List Nat))
    (nr sg : Nat) (name : Str) (D : Settings E f nd h start goal nr sg name) (path : Str) (hp : f.set "grid.file".toList = none) (ht : f.set "grid.text".toList = some path)
    (hload : (∃ g, IO.loadMapFromText E.conv nd E.ljunk (E.txt path) (newGrid E) = .returned 0 g) ∨ IO.loadMapFromText E.conv nd E.ljunk (E.txt path) (newGrid E) = .exited)
    (ms : List (Made F)) (hl : (readSolvers f.unr).length = ms.length)
    (hr : ∀ i (h1 : i < (readSolvers f.unr).length) (h2 : i < ms.length), ∀ o, Round E.lex (readSolvers f.unr)[i].1 (readSolvers f.unr)[i].2 o ↔ o = .add ms[i]) (o : End F) :
    Main E argc o ↔ o = .exit 1 := by
  rw [main_reaches E f hcfg argc ha D ms hl hr o]
  have hg : makeGrid E (options E.stem f) nd = .error (.exit 1) := by
    unfold makeGrid
    have e1 : options E.stem f "grid.file".toList = none := by unfold options; rw [hp]; rfl
    have e2 : options E.stem f "grid.text".toList = some path := by unfold options; rw [ht]
    rw [e1, e2]
    dsimp only
    rcases hload with ⟨g, hload⟩ | hload <;> rw [hload] <;> rfl
  unfold problem
  rw [hg]

/-- in particular a text map that cannot be opened, whatever its name -/
theorem _root_.FMV.C68_no_text_map (E : Env F) (f : CfgFile) (hcfg : E.cfg = some f) (argc : Nat) (ha : 2 ≤ argc) (nd : Nat) (h : F) (start : List Nat) (goal : Option (List Nat))
    (nr sg : Nat) (name : Str) (D : Settings E f nd h start goal nr sg name) (path : Str) (hp : f.set "grid.file".toList = none) (ht : f.set "grid.text".toList = some path)
    (hno : E.txt path = none) (ms : List (Made F)) (hl : (readSolvers f.unr).length = ms.length)
    (hr : ∀ i (h1 : i < (readSolvers f.unr).length) (h2 : i < ms.length), ∀ o, Round E.lex (readSolvers f.unr)[i].1 (readSolvers f.unr)[i].2 o ↔ o = .add ms[i]) (o : End F) :
    Main E argc o ↔ o = .exit 1 := by
  refine C68_bad_text_map E f hcfg argc ha nd h start goal nr sg name D path hp ht ?_ ms hl hr o
  rw [hno]
  exact Or.inl ⟨_, rfl⟩

/-- how a configuration ends whose first bad solver line throws or leaves a pointer uninitialised -/
theorem fails_at {L : CFG.Lex F} {l1 l2 : List (Str × Str)} {n p : Str} {ms : List (Made F)} (hl : l1.length = ms.length)
    (hr : ∀ i (h1 : i < l1.length) (h2 : i < ms.length), ∀ o, Round L l1[i].1 l1[i].2 o ↔ o = .add ms[i]) (bad : Outcome F) (hb : ∀ o, Round L n p o ↔ o = bad)
    (ha : ∀ m, bad ≠ .add m) (hsk : bad ≠ .skip) (e : End F) :
    Fails L (l1 ++ (n, p) :: l2) e ↔ (bad = .throws ∧ e = .throws) ∨ ((bad = .uninit ∨ bad = .outOfRange) ∧ e = .undef) := by
  have hc := (C44_order L l1 ms hl hr ms).2 rfl
  have nocfg : ∀ (a b : List (Str × Str)) ms', ¬ Configures L (a ++ (n, p) :: b) ms' := by
    intro a
    induction a with
    | nil =>
      intro b ms' h
      cases h with
      | add _ _ m h _ => exact ha m ((hb _).1 h).symm
      | skip _ _ h _ => exact hsk ((hb _).1 h).symm
    | cons c cs ih =>
      intro b ms' h
      cases h with
      | add _ _ m _ h => exact ih _ _ h
      | skip _ _ _ h => exact ih _ _ h
  constructor
  · rintro ⟨k1, n', p', k2, ms', hs, hcf, hrr⟩
    rcases List.append_eq_append_iff.1 hs with ⟨c, h1, h2⟩ | ⟨c, h1, h2⟩
    · cases c with
      | nil =>
        simp only [List.nil_append, List.cons.injEq, Prod.mk.injEq] at h2
        obtain ⟨⟨rfl, rfl⟩, rfl⟩ := h2
        rcases hrr with ⟨hrr, he⟩ | ⟨hrr | hrr, he⟩
        · exact Or.inl ⟨((hb _).1 hrr).symm, he⟩
        · exact Or.inr ⟨Or.inl ((hb _).1 hrr).symm, he⟩
        · exact Or.inr ⟨Or.inr ((hb _).1 hrr).symm, he⟩
      | cons x c =>
        simp only [List.cons_append, List.cons.injEq] at h2
        obtain ⟨rfl, rfl⟩ := h2
        rw [h1] at hcf
        exact absurd hcf (nocfg _ _ _)
    · cases c with
      | nil =>
        simp only [List.nil_append, List.cons.injEq, Prod.mk.injEq] at h2
        obtain ⟨⟨rfl, rfl⟩, rfl⟩ := h2
        rcases hrr with ⟨hrr, he⟩ | ⟨hrr | hrr, he⟩
        · exact Or.inl ⟨((hb _).1 hrr).symm, he⟩
        · exact Or.inr ⟨Or.inl ((hb _).1 hrr).symm, he⟩
        · exact Or.inr ⟨Or.inr ((hb _).1 hrr).symm, he⟩
      | cons x c =>
        simp only [List.cons_append, List.cons.injEq] at h2
        obtain ⟨rfl, rfl⟩ := h2
        have hi : k1.length < l1.length := by rw [h1]; simp
        have h0 := hr k1.length hi (by omega)
        have e1 : l1[k1.length] = (n', p') := by simp [h1]
        rw [e1] at h0
        rcases hrr with ⟨hrr, -⟩ | ⟨hrr | hrr, -⟩ <;> · have := (h0 _).1 hrr; cases this
  · rintro (⟨rfl, rfl⟩ | ⟨hbu, rfl⟩)
    · exact ⟨l1, n, p, l2, ms, rfl, hc, Or.inl ⟨(hb _).2 rfl, rfl⟩⟩
    · refine ⟨l1, n, p, l2, ms, rfl, hc, Or.inr ⟨?_, rfl⟩⟩
      rcases hbu with rfl | rfl
      · exact Or.inl ((hb _).2 rfl)
      · exact Or.inr ((hb _).2 rfl)

/-- `main` with a bad solver line -/
theorem main_bad_line (E : Env F) (f : CfgFile) (hcfg : E.cfg = some f) (argc : Nat) (ha : 2 ≤ argc) {nd : Nat} {h : F} {start : List Nat} {goal : Option (List Nat)}
    {nr sg : Nat} {name : Str} (D : Settings E f nd h start goal nr sg name) {l1 l2 : List (Str × Str)} {n p : Str} (hlines : readSolvers f.unr = l1 ++ (n, p) :: l2) {ms : List (Made F)}
    (hl : l1.length = ms.length) (hr : ∀ i (h1 : i < l1.length) (h2 : i < ms.length), ∀ o, Round E.lex l1[i].1 l1[i].2 o ↔ o = .add ms[i]) (bad : Outcome F)
    (hb : ∀ o, Round E.lex n p o ↔ o = bad) (hadd : ∀ m, bad ≠ .add m) (hsk : bad ≠ .skip) (o : End F) :
    Main E argc o ↔ (bad = .throws ∧ o = .throws) ∨ ((bad = .uninit ∨ bad = .outOfRange) ∧ o = .undef) := by
  unfold Main
  rw [if_neg (by omega), hcfg]
  dsimp only
  obtain ⟨s, hs, -⟩ := D.start
  rw [if_neg (by rw [hs]; simp), if_neg (by rw [text_of D.cell rfl]; simp)]
  obtain ⟨s1, hs1, hu1⟩ := D.ndims
  rw [text_of hs1 rfl, hu1]
  dsimp only
  rw [if_pos D.two_or_three]
  unfold Configure
  dsimp only
  obtain ⟨s2, hs2, hu2⟩ := D.save
  obtain ⟨s3, hs3, hu3⟩ := D.runs
  rw [text_of hs2 rfl, text_of hs3 rfl, hu2, hu3, hlines]
  dsimp only
  rw [fails_at hl hr bad hb hadd hsk o]
  constructor
  · rintro (⟨ms', h1, -⟩ | h1)
    · exfalso
      have nocfg : ∀ (a b : List (Str × Str)) ms', ¬ Configures E.lex (a ++ (n, p) :: b) ms' := by
        intro a
        induction a with
        | nil =>
          intro b ms' h
          cases h with
          | add _ _ m h _ => exact hadd m ((hb _).1 h).symm
          | skip _ _ h _ => exact hsk ((hb _).1 h).symm
        | cons c cs ih =>
          intro b ms' h
          cases h with
          | add _ _ m _ h => exact ih _ _ h
          | skip _ _ _ h => exact ih _ _ h
      exact nocfg _ _ _ h1
    · exact h1
  · exact Or.inr

/-- **C68**: a solver line whose arguments cannot be converted ends the program with an exception, whatever comes after it; nothing is run. -/
theorem _root_.FMV.C68_bad_line (E : Env F) (f : CfgFile) (hcfg : E.cfg = some f) (argc : Nat) (ha : 2 ≤ argc) (nd : Nat) (h : F) (start : List Nat) (goal : Option (List Nat))
    (nr sg : Nat) (name : Str) (D : Settings E f nd h start goal nr sg name) (l1 l2 : List (Str × Str)) (n p : Str) (hlines : readSolvers f.unr = l1 ++ (n, p) :: l2) (ms : List (Made F))
    (hl : l1.length = ms.length) (hr : ∀ i (h1 : i < l1.length) (h2 : i < ms.length), ∀ o, Round E.lex l1[i].1 l1[i].2 o ↔ o = .add ms[i])
    (hb : ∀ o, Round E.lex n p o ↔ o = .throws) (o : End F) : Main E argc o ↔ o = .throws := by
  rw [main_bad_line E f hcfg argc ha D hlines hl hr .throws hb (by simp) (by simp) o]
  simp

/-- **C68 refuted: some bad solver lines are not reported.**  A line that leaves the solver pointer uninitialised (see C44) makes the program's behaviour undefined. -/
theorem _root_.FMV.C68_refuted_line (E : Env F) (f : CfgFile) (hcfg : E.cfg = some f) (argc : Nat) (ha : 2 ≤ argc) (nd : Nat) (h : F) (start : List Nat) (goal : Option (List Nat))
    (nr sg : Nat) (name : Str) (D : Settings E f nd h start goal nr sg name) (l1 l2 : List (Str × Str)) (n p : Str) (hlines : readSolvers f.unr = l1 ++ (n, p) :: l2) (ms : List (Made F))
    (hl : l1.length = ms.length) (hr : ∀ i (h1 : i < l1.length) (h2 : i < ms.length), ∀ o, Round E.lex l1[i].1 l1[i].2 o ↔ o = .add ms[i])
    (hb : ∀ o, Round E.lex n p o ↔ o = .uninit) (o : End F) : Main E argc o ↔ o = .undef := by
  rw [main_bad_line E f hcfg argc ha D hlines hl hr .uninit hb (by simp) (by simp) o]
  simp

/-! ## Non-vacuity -/

/-- the configuration of Props/Program with an image, a text map and a solver line with an argument that is not a number -/
def exCfgBad (file txt : Option Str) : CfgFile :=
  { set := fun k => if k = "grid.file".toList then file else if k = "grid.text".toList then txt else exCfg.set k
    unr := [("Solvers.FSM".toList, []), ("Solvers.FSM".toList, "Mine,ten".toList), ("Solvers.DDQM".toList, [])] }

/-- non-vacuity: all its other settings are good, the image and the text map cannot be read, the first line is good and the second one bad -/
example (file txt : Option Str) : Settings exEnv (exCfgBad file txt) 2 (XR.fin 1) [1,2] (some [3,0]) 10 0 "my".toList ∧
    (exCfgBad file txt).set "grid.file".toList = file ∧ (exCfgBad file txt).set "grid.text".toList = txt ∧
    (∀ s, exEnv.img s = none) ∧ (∀ s, exEnv.txt s = none) ∧
    readSolvers (exCfgBad file txt).unr = [("fsm".toList, [])] ++ ("fsm".toList, "Mine,ten".toList) :: [("ddqm".toList, [])] ∧
    (∀ o, Round exEnv.lex "fsm".toList [] o ↔ o = .add (⟨.fsm (2^32 - 1), .dary, "FSM".toList⟩ : Made XR)) ∧
    ∀ o, Round exEnv.lex "fsm".toList "Mine,ten".toList o ↔ o = .throws := by
  have h1 : ∀ k, k ≠ "grid.file".toList → k ≠ "grid.text".toList → (exCfgBad file txt).set k = exCfg.set k := by
    intro k h1 h2
    show (if k = "grid.file".toList then file else if k = "grid.text".toList then txt else exCfg.set k) = _
    rw [if_neg h1, if_neg h2]
  have n : ∀ k : Str, k ≠ "grid.file".toList → k ≠ "grid.text".toList → exCfg.set k = none → (exCfgBad file txt).set k = none := fun k a b c => (h1 k a b).trans c
  refine ⟨⟨Or.inr ⟨n _ (by decide) (by decide) (by decide), rfl⟩, ⟨_, Or.inr ⟨n _ (by decide) (by decide) (by decide), rfl⟩, by decide⟩, Or.inl rfl,
      ⟨_, Or.inr ⟨n _ (by decide) (by decide) (by decide), rfl⟩, ?_⟩,
      ⟨"1,2".toList, (h1 _ (by decide) (by decide)).trans (by decide), ⟨["1".toList, "2".toList], ⟨by decide, by decide, by decide⟩, by decide⟩⟩,
      ⟨"3,0".toList, Or.inl ((h1 _ (by decide) (by decide)).trans (by decide)), ⟨["3".toList, "0".toList], ⟨by decide, by decide, by decide⟩, by decide⟩⟩,
      ⟨_, Or.inr ⟨n _ (by decide) (by decide) (by decide), rfl⟩, by decide⟩, ⟨_, Or.inr ⟨n _ (by decide) (by decide) (by decide), rfl⟩, by decide⟩,
      Or.inr ⟨n _ (by decide) (by decide) (by decide), rfl⟩⟩, rfl, rfl, fun _ => rfl, fun _ => rfl, ?_, ?_, ?_⟩
  · show (exUns "1".toList).map (fun n => XR.fin n) = some (XR.fin 1)
    have : exUns "1".toList = some 1 := by decide
    rw [this]
    simp
  · show readSolvers [("Solvers.FSM".toList, []), ("Solvers.FSM".toList, "Mine,ten".toList), ("Solvers.DDQM".toList, [])] = _
    decide +kernel
  · exact fun o => C44_default exEnv.lex "fsm".toList _ ⟨.fsm, fun _ => (by decide : ("fsm".toList, "FSM".toList) ∈ defaultNames), fun h => absurd rfl h⟩ o
  · exact fun o => C44_bad_number exEnv.lex "fsm".toList _ "Mine".toList "ten".toList ⟨by decide, by decide, by decide⟩ (by decide) (by decide) (.fsm _ (by decide)) o

end FMV.Program
