import Verif.Props.CFG
/-
C44: the options of the solvers of the README are recognised.
-/
namespace FMV.CFG
open Console Spec
variable {F : Type} [Arith F]

/-- **C44**: an option `Solvers.<name>` in any mixture of cases is read as a solver line, for every name that stands for a solver class. -/
theorem _root_.FMV.C44_read_wanted (L : Lex F) (solver : Str) (args : List Str) (kind : Kind F) (heap : Heap) (h : ClassOf L solver args kind heap) (key val : Str)
    (hk : key.map Char.toLower = "solvers.".toList ++ solver) : readLine key val = [(solver, val)] := by
  apply C44_read_known key val solver _ hk
  cases h <;> decide

/-- and nothing else is read as a solver line -/
theorem _root_.FMV.C44_read_only (L : Lex F) (key val : Str) (n v : Str) (h : (n, v) ∈ readLine key val) :
    key.map Char.toLower = "solvers.".toList ++ n ∧ v = val ∧ ∃ kind heap, ClassOf L n [] kind heap := by
  unfold readLine at h
  dsimp only at h
  split at h
  · rename_i h8
    simp only [List.mem_map, List.mem_filter, decide_eq_true_eq] at h
    obtain ⟨a, ⟨ha, hd⟩, e⟩ := h
    obtain ⟨rfl, rfl⟩ := Prod.mk.inj e
    refine ⟨?_, rfl, ?_⟩
    · rw [← h8, ← hd, List.take_append_drop]
    · simp only [knownSolvers, List.map_cons, List.map_nil, List.mem_cons, List.not_mem_nil, or_false] at ha
      rcases ha with rfl | rfl | rfl | rfl | rfl | rfl | rfl | rfl | rfl | rfl | rfl | rfl
      · exact ⟨_, _, .fmm⟩
      · exact ⟨_, _, .fmmstar⟩
      · exact ⟨_, _, .fmmfib⟩
      · exact ⟨_, _, .fmmfibstar⟩
      · exact ⟨_, _, .sfmm⟩
      · exact ⟨_, _, .sfmmstar⟩
      · exact ⟨_, _, .gmm⟩
      · exact ⟨_, _, .fim⟩
      · exact ⟨_, _, .ufmm⟩
      · exact ⟨_, _, .fsm⟩
      · exact ⟨_, _, .lsm⟩
      · exact ⟨_, _, .ddqm⟩
  · simp at h

/-- what a reader of the README expects of the options of a CFG file that are not grid, problem or benchmark options: those named `solvers.<solver class>` in any
mixture of cases are the solver lines, in file order, and the others are ignored -/
inductive _root_.FMV.Spec.SolverLines (L : Lex F) : List (Str × Str) → List (Str × Str) → Prop
  | nil : SolverLines L [] []
  | solver {key val n l r} (kind : Kind F) (heap : Heap) (hk : key.map Char.toLower = "solvers.".toList ++ n) (hc : ClassOf L n [] kind heap)
      (h : SolverLines L l r) : SolverLines L ((key, val) :: l) ((n, val) :: r)
  | other {key val l r} (hk : ∀ n kind heap, ClassOf L n [] kind heap → key.map Char.toLower ≠ "solvers.".toList ++ n)
      (h : SolverLines L l r) : SolverLines L ((key, val) :: l) r

/-- **C44**: `readOptions` collects exactly the solver lines, all of them and in file order. -/
theorem _root_.FMV.C44_read_all (L : Lex F) (unr r : List (Str × Str)) : SolverLines L unr r ↔ r = readSolvers unr := by
  have one : ∀ key val n kind heap, key.map Char.toLower = "solvers.".toList ++ n → ClassOf L n [] kind heap → readLine key val = [(n, val)] :=
    fun key val n kind heap hk hc => C44_read_wanted L n [] kind heap hc key val hk
  have none : ∀ key val, (∀ n kind heap, ClassOf L n [] kind heap → key.map Char.toLower ≠ "solvers.".toList ++ n) → readLine key val = [] := by
    intro key val hk
    rcases C44_read key val with h | ⟨n, _, h, _⟩
    · exact h
    · obtain ⟨h1, _, kind, heap, h2⟩ := C44_read_only L key val n val (by rw [h]; simp)
      exact absurd h1 (hk n kind heap h2)
  constructor
  · intro h
    induction h with
    | nil => rfl
    | solver kind heap hk hc _ ih => subst ih; simp [readSolvers, one _ _ _ kind heap hk hc]
    | other hk _ ih => subst ih; simp [readSolvers, none _ _ hk]
  · rintro rfl
    induction unr with
    | nil => exact .nil
    | cons kv l ih =>
      obtain ⟨key, val⟩ := kv
      by_cases hk : ∀ n kind heap, ClassOf L n [] kind heap → key.map Char.toLower ≠ "solvers.".toList ++ n
      · have : readSolvers ((key, val) :: l) = readSolvers l := by simp [readSolvers, none key val hk]
        rw [this]; exact .other hk ih
      · push Not at hk
        obtain ⟨n, kind, heap, hc, hk⟩ := hk
        have : readSolvers ((key, val) :: l) = (n, val) :: readSolvers l := by simp [readSolvers, one key val n kind heap hk hc]
        rw [this]; exact .solver kind heap hk hc ih

/-- concrete: two solver lines and an option that is none -/
example : readSolvers [("Solvers.FMM".toList, "".toList), ("solvers.astar".toList, "".toList), ("solvers.gmm".toList, "G,2".toList)] =
    [("fmm".toList, "".toList), ("gmm".toList, "G,2".toList)] := by decide

/-- a concrete option: `SOLVERS.DDQM=` -/
example : readLine "SOLVERS.DDQM".toList "x".toList = [("ddqm".toList, "x".toList)] := by decide

end FMV.CFG
