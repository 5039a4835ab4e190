import Verif.Props.ProgramBad
/-
C68: values of the grid and of the problem that are not numbers.
-/
namespace FMV.Program
open Arith Console CFG Spec
variable {F : Type} [Arith F]

/-- a comma-separated list of `n` items of which one is not a number -/
def _root_.FMV.Spec.BadNumbers (L : CFG.Lex F) (s : Str) (n : Nat) : Prop := ∃ l, Items s l ∧ l.length = n ∧ ∃ x ∈ l, L.uns x = none

/-- The options for the benchmark itself: number of dimensions, number of runs, which grids to save, name; and there is a start. -/
structure _root_.FMV.Spec.Basics (E : Env F) (f : CfgFile) (nd nr sg : Nat) (name : Str) : Prop where
  cell : Says f "grid.cell" "FMCell".toList "FMCell".toList
  ndims : ∃ s, Says f "grid.ndims" "2".toList s ∧ E.lex.uns s = some nd
  two_or_three : nd = 2 ∨ nd = 3
  start : f.set "problem.start".toList ≠ none
  runs : ∃ s, Says f "benchmark.runs" "10".toList s ∧ E.lex.uns s = some nr
  save : ∃ s, Says f "benchmark.savegrid" "0".toList s ∧ E.lex.uns s = some sg
  name : Says f "benchmark.name" E.stem name

theorem bad_cast {L : CFG.Lex F} {s : Str} {n : Nat} (h : BadNumbers L s n) : splitAndCast L.uns n s = none := by
  obtain ⟨l, hi, rfl, x, hx, hb⟩ := h
  unfold splitAndCast
  rw [hi.text]
  have key : ∀ (l : List Str) (i : Str), l ≠ [] → (∀ it ∈ l, ',' ∉ it) → x ∈ l → castLoop L.uns l.length ⟨List.intercalate [','] l, true⟩ i = none := by
    intro l
    induction l with
    | nil => intro i h; exact absurd rfl h
    | cons y l ih =>
      intro i _ hcm hx
      have hy := hcm y (by simp)
      cases l with
      | nil =>
        have : x = y := by simpa using hx
        subst this
        rw [List.length_cons, castLoop, getline_last hy]
        simp [hb]
      | cons z l =>
        rw [List.length_cons, castLoop, getline_cons hy]
        dsimp only
        cases hc : L.uns y with
        | none => rfl
        | some a =>
          dsimp only
          have hx' : x ∈ z :: l := by
            rcases List.mem_cons.1 hx with rfl | h
            · rw [hb] at hc; cases hc
            · exact h
          rw [ih y (by simp) (fun it hi => hcm it (by simp at hi ⊢; tauto)) hx']
          rfl
  exact key l [] hi.ne hi.comma hx

/-- `main` up to the problem -/
theorem main_reaches' (E : Env F) (f : CfgFile) (hcfg : E.cfg = some f) (argc : Nat) (ha : 2 ≤ argc) {nd nr sg : Nat}
    {name : Str} (D : Basics E f nd nr sg name) (ms : List (Made F)) (hl : (readSolvers f.unr).length = ms.length)
    (hr : ∀ i (h1 : i < (readSolvers f.unr).length) (h2 : i < ms.length), ∀ o, Round E.lex (readSolvers f.unr)[i].1 (readSolvers f.unr)[i].2 o ↔ o = .add ms[i]) (o : End F) :
    Main E argc o ↔ o = problem E (options E.stem f) nd ms (fun pts goal => ⟨(List.range ms.length).zip (ms.map Made.name), pts, goal, nr, sg, name⟩) := by
  unfold Main
  rw [if_neg (by omega), hcfg]
  dsimp only
  rw [if_neg D.start, if_neg (by rw [text_of D.cell rfl]; simp)]
  obtain ⟨s1, hs1, hu1⟩ := D.ndims
  rw [text_of hs1 rfl, hu1]
  dsimp only
  rw [if_pos D.two_or_three]
  unfold Configure
  dsimp only
  obtain ⟨s2, hs2, hu2⟩ := D.save
  obtain ⟨s3, hs3, hu3⟩ := D.runs
  rw [text_of hs2 rfl, text_of hs3 rfl, hu2, hu3, text_of D.name rfl]
  dsimp only
  have hc := C44_order E.lex _ ms hl hr
  constructor
  · rintro (⟨ms', h1, h2⟩ | h1)
    · rw [(hc ms').1 h1] at h2; exact h2
    · exact absurd h1 (fails_not hl hr o)
  · rintro rfl; exact Or.inl ⟨ms, (hc ms).2 rfl, rfl⟩

/-- **C68**: sizes, a leaf size, start or goal coordinates that are not numbers end the program with an exception (on an empty map; the goal `nan` means no goal). -/
theorem _root_.FMV.C68_bad_value (E : Env F) (f : CfgFile) (hcfg : E.cfg = some f) (argc : Nat) (ha : 2 ≤ argc) (nd nr sg : Nat) (name : Str)
    (D : Basics E f nd nr sg name) (ms : List (Made F)) (hl : (readSolvers f.unr).length = ms.length)
    (hr : ∀ i (h1 : i < (readSolvers f.unr).length) (h2 : i < ms.length), ∀ o, Round E.lex (readSolvers f.unr)[i].1 (readSolvers f.unr)[i].2 o ↔ o = .add ms[i])
    (hfile : f.set "grid.file".toList = none) (htext : f.set "grid.text".toList = none)
    (hbad : (∃ s, Says f "grid.dimsize" "200,200".toList s ∧ BadNumbers E.lex s nd) ∨
      (∃ s, Says f "grid.leafsize" "1".toList s ∧ E.lex.dbl s = none) ∨
      (∃ s, f.set "problem.start".toList = some s ∧ BadNumbers E.lex s nd) ∨
      (∃ s, Says f "problem.goal" "nan".toList s ∧ s ≠ "nan".toList ∧ BadNumbers E.lex s nd)) (o : End F) :
    Main E argc o ↔ o = .throws := by
  rw [main_reaches' E f hcfg argc ha D ms hl hr o]
  have hg : makeGrid E (options E.stem f) nd = match splitAndCast E.lex.uns nd (text (options E.stem f) "grid.dimsize") with
      | none => .error .throws | some dims => .ok ((newGrid E).resize dims) := by
    unfold makeGrid
    have e1 : options E.stem f "grid.file".toList = none := by unfold options; rw [hfile]; rfl
    have e2 : options E.stem f "grid.text".toList = none := by unfold options; rw [htext]; rfl
    rw [e1, e2]
    rfl
  unfold problem
  rw [hg]
  rcases hbad with ⟨s, h1, h2⟩ | ⟨s, h1, h2⟩ | ⟨s, h1, h2⟩ | ⟨s, h1, h2, h3⟩
  · rw [text_of h1 rfl, bad_cast h2]
  · cases splitAndCast E.lex.uns nd (text (options E.stem f) "grid.dimsize") with
    | none => exact Iff.rfl
    | some dims => dsimp only; rw [text_of h1 rfl, h2]
  · have t2 : text (options E.stem f) "problem.start" = s := by unfold text options; rw [h1]; rfl
    cases splitAndCast E.lex.uns nd (text (options E.stem f) "grid.dimsize") with
    | none => exact Iff.rfl
    | some dims =>
      dsimp only
      rw [t2, bad_cast h2]
      cases E.lex.dbl (text (options E.stem f) "grid.leafsize") <;> exact Iff.rfl
  · cases splitAndCast E.lex.uns nd (text (options E.stem f) "grid.dimsize") with
    | none => exact Iff.rfl
    | some dims =>
      dsimp only
      cases E.lex.dbl (text (options E.stem f) "grid.leafsize") with
      | none => exact Iff.rfl
      | some x =>
        dsimp only
        cases splitAndCast E.lex.uns nd (text (options E.stem f) "problem.start") with
        | none => exact Iff.rfl
        | some sc => dsimp only; rw [text_of h1 rfl, if_neg h2, bad_cast h3]

/-- a benchmark whose sizes are `4,x` -/
private def badCfg : CfgFile := { exCfg with set := fun k => if k = "grid.dimsize".toList then some "4,x".toList else exCfg.set k }
private noncomputable def badEnv : Env XR := { exEnv with cfg := some badCfg }

example : Main badEnv 2 (.throws) ∧ Basics badEnv badCfg 2 10 0 "my".toList ∧ BadNumbers badEnv.lex "4,x".toList 2 := by
  have hb : BadNumbers badEnv.lex "4,x".toList 2 := ⟨["4".toList, "x".toList], ⟨by decide, by decide, by decide⟩, rfl, "x".toList, by decide, by decide⟩
  have hB : Basics badEnv badCfg 2 10 0 "my".toList := ⟨Or.inr ⟨by decide, rfl⟩, ⟨_, Or.inr ⟨by decide, rfl⟩, by decide⟩, Or.inl rfl, by decide,
      ⟨_, Or.inr ⟨by decide, rfl⟩, by decide⟩, ⟨_, Or.inr ⟨by decide, rfl⟩, by decide⟩, Or.inr ⟨by decide, rfl⟩⟩
  refine ⟨?_, hB, hb⟩
  have hrs : readSolvers badCfg.unr = [("fsm".toList, [])] := by decide +kernel
  refine (C68_bad_value badEnv badCfg rfl 2 (by decide) 2 10 0 "my".toList hB [(⟨.fsm (2^32 - 1), .dary, "FSM".toList⟩ : Made XR)] (by rw [hrs]; rfl) ?_ (by decide) (by decide)
    (Or.inl ⟨_, Or.inl (by decide), hb⟩) _).2 rfl
  intro i h1 h2 o
  have hi : i = 0 := by simpa using h2
  subst hi
  simp only [hrs]
  exact C44_default exEnv.lex "fsm".toList _ ⟨.fsm, fun _ => (by decide : ("fsm".toList, "FSM".toList) ∈ defaultNames), fun h => absurd rfl h⟩ o

end FMV.Program
