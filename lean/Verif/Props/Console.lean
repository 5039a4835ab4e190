import Verif.Spec.Console
import Mathlib.Tactic.Ring
import Mathlib.Tactic.Linarith
/-
C42: command-line parsing.
-/
namespace FMV.Console
open Spec

theorem findFrom_spec (name : Str) : ∀ (l : List Str) (i : Nat),
    (findFrom name i l = -1 ∧ ∀ j : Nat, l[j]? ≠ some name) ∨
    ∃ j : Nat, findFrom name i l = ((i + j : Nat) : Int) ∧ l[j]? = some name ∧ ∀ m, m < j → l[m]? ≠ some name
  | [], i => Or.inl ⟨rfl, by simp⟩
  | a :: rest, i => by
    unfold findFrom
    by_cases h : a = name
    · rw [if_pos h]; exact Or.inr ⟨0, by simp, by simp [h], by simp⟩
    · rw [if_neg h]
      rcases findFrom_spec name rest (i+1) with ⟨h1, h2⟩ | ⟨j, h1, h2, h3⟩
      · refine Or.inl ⟨h1, ?_⟩
        intro j
        cases j with
        | zero => simpa using h
        | succ j => simpa using h2 j
      · refine Or.inr ⟨j+1, by rw [h1]; congr 1; omega, by simpa using h2, ?_⟩
        intro m hm
        cases m with
        | zero => simpa using h
        | succ m => simpa using h3 m (by omega)

/-- **C42**: `findArguments` returns the position of the first occurrence of the flag after the program's name. -/
theorem _root_.FMV.C42_find (argv : List Str) (flag : Str) (k : Nat) : findArguments argv flag = (k : Int) ↔ FlagAt argv flag k := by
  unfold findArguments
  have hd : ∀ j, (argv.drop 1)[j]? = argv[j+1]? := by intro j; rw [List.getElem?_drop]; congr 1; omega
  constructor
  · intro h
    rcases findFrom_spec flag (argv.drop 1) 1 with ⟨h1, _⟩ | ⟨j, h1, h2, h3⟩
    · rw [h1] at h; omega
    · rw [h1] at h
      have hk : k = j + 1 := by omega
      subst hk
      refine ⟨by omega, by rw [← hd]; exact h2, ?_⟩
      intro m hm hlt
      have := h3 (m-1) (by omega)
      rw [hd, show m - 1 + 1 = m by omega] at this
      exact this
  · rintro ⟨h0, h1, h2⟩
    rcases findFrom_spec flag (argv.drop 1) 1 with ⟨h3, h4⟩ | ⟨j, h3, h4, h5⟩
    · have := h4 (k-1)
      rw [hd, show k - 1 + 1 = k by omega] at this
      exact absurd h1 this
    · rw [h3]
      rw [hd] at h4
      have h6 : ¬ j + 1 < k := fun hlt => h2 (j+1) (by omega) hlt h4
      have h7 : ¬ k - 1 < j := fun hlt => by
        have := h5 _ hlt
        rw [hd, show k - 1 + 1 = k by omega] at this
        exact this h1
      omega

/-- **C42**: ... and -1 if the flag is absent. -/
theorem _root_.FMV.C42_find_absent (argv : List Str) (flag : Str) : findArguments argv flag = -1 ↔ FlagAbsent argv flag := by
  unfold findArguments
  have hd : ∀ j, (argv.drop 1)[j]? = argv[j+1]? := by intro j; rw [List.getElem?_drop]; congr 1; omega
  constructor
  · intro h j hj
    rcases findFrom_spec flag (argv.drop 1) 1 with ⟨_, h2⟩ | ⟨m, h1, _, _⟩
    · have := h2 (j-1)
      rwa [hd, show j - 1 + 1 = j by omega] at this
    · rw [h1] at h; omega
  · intro h
    rcases findFrom_spec flag (argv.drop 1) 1 with ⟨h1, _⟩ | ⟨m, _, h2, _⟩
    · exact h1
    · rw [hd] at h2; exact absurd h2 (h _ (by omega))

/-- **C42**, scalar form, flag given with a value after it: the position of the value is returned and the value is stored. -/
theorem _root_.FMV.C42_scalar {α : Type} (conv : Str → α) (argv : List Str) (flag : Str) (val : α) (k : Nat) (h : FlagAt argv flag k) (a : Str)
    (ha : argv[k+1]? = some a) : parseScalar conv argv flag val = (((k + 1 : Nat) : Int), conv a) := by
  unfold parseScalar
  rw [(C42_find argv flag k).2 h]
  obtain ⟨hlt, he⟩ := List.getElem?_eq_some_iff.1 ha
  have hn : ((k : Int) + 1).toNat = k + 1 := by omega
  dsimp only
  rw [if_pos ⟨by omega, by omega⟩, hn, List.getD_eq_getElem?_getD, ha]
  simp

/-- **C42**, scalar form, the flag is the last argument: the position after it is returned and the variable is untouched. -/
theorem _root_.FMV.C42_scalar_last {α : Type} (conv : Str → α) (argv : List Str) (flag : Str) (val : α) (k : Nat) (h : FlagAt argv flag k)
    (hl : k + 1 = argv.length) : parseScalar conv argv flag val = (((k + 1 : Nat) : Int), val) := by
  unfold parseScalar
  rw [(C42_find argv flag k).2 h]
  dsimp only
  rw [if_neg (by omega)]
  rfl

/-- **C42**, scalar form, flag absent: 0 is returned and the variable is untouched. -/
theorem _root_.FMV.C42_scalar_absent {α : Type} (conv : Str → α) (argv : List Str) (flag : Str) (val : α) (h : FlagAbsent argv flag) :
    parseScalar conv argv flag val = (0, val) := by
  unfold parseScalar
  rw [(C42_find_absent argv flag).2 h]
  dsimp only
  rw [if_neg (by omega)]
  rfl

theorem collect_some {α : Type} (conv : Str → α) : ∀ (l : List Str), l ≠ [] → ∃ t : List Str, collect conv l = some (t.map conv) ∧
    (∀ j, j < t.length → t[j]? = l[j]?) ∧ (∀ a ∈ t, a.head? ≠ some '-') ∧ (l.length = t.length ∨ ∃ a, l[t.length]? = some a ∧ a.head? = some '-')
  | [], h => absurd rfl h
  | a :: rest, _ => by
    unfold collect
    by_cases h : a.head? = some '-'
    · rw [if_pos h]
      exact ⟨[], rfl, by simp, by simp, Or.inr ⟨a, by simp, h⟩⟩
    · rw [if_neg h]
      cases rest with
      | nil => exact ⟨[a], rfl, by simp, by simpa using h, Or.inl rfl⟩
      | cons b rest' =>
        obtain ⟨t, h1, h2, h3, h4⟩ := collect_some conv (b :: rest') (by simp)
        refine ⟨a :: t, by dsimp only; rw [h1]; rfl, ?_, ?_, ?_⟩
        · intro j hj
          cases j with
          | zero => rfl
          | succ j => simpa using h2 j (by simpa using hj)
        · intro x hx
          rcases List.mem_cons.1 hx with rfl | hx
          · exact h
          · exact h3 x hx
        · rcases h4 with h4 | ⟨c, h4, h5⟩
          · left; simpa using h4
          · right; exact ⟨c, by simpa using h4, h5⟩

theorem parseList_from {α : Type} (conv : Str → α) (argv : List Str) (flag : Str) (vals : List α) (z : Int) (i : Nat) (hz : findArguments argv flag = z)
    (hi : (z + 1).toNat = i) (hlt : i < argv.length) : ∃ l, ArgsFrom argv i l ∧ parseList conv argv flag vals = some (z, vals ++ l.map conv) := by
  have hne : argv.drop i ≠ [] := by intro h; have := congrArg List.length h; simp at this; omega
  obtain ⟨t, h1, h2, h3, h4⟩ := collect_some conv _ hne
  refine ⟨t, ⟨?_, h3, ?_⟩, ?_⟩
  · intro j hj; rw [h2 j hj, List.getElem?_drop]
  · rcases h4 with h4 | ⟨a, h4, h5⟩
    · left; rw [List.length_drop] at h4; omega
    · right; exact ⟨a, by rw [← List.getElem?_drop]; exact h4, h5⟩
  · unfold parseList
    rw [hz]
    dsimp only
    rw [hi, h1]
    rfl

/-- the list of arguments up to the next flag is determined -/
theorem _root_.FMV.C42_args_unique (argv : List Str) (i : Nat) (l l' : List Str) (h : ArgsFrom argv i l) (h' : ArgsFrom argv i l') : l = l' := by
  have key : ∀ l l' : List Str, ArgsFrom argv i l → ArgsFrom argv i l' → l.length ≤ l'.length := by
    intro l l' h h'
    by_contra hc
    push Not at hc
    have h1 := h.1 l'.length hc
    rcases h'.2.2 with h2 | ⟨a, h2, h3⟩
    · have h5 : l[l'.length]? = some (l[l'.length]'hc) := List.getElem?_eq_getElem hc
      rw [h5] at h1
      have := (List.getElem?_eq_some_iff.1 h1.symm).1
      omega
    · rw [h2] at h1
      exact h.2.1 a (List.mem_of_getElem? h1) h3
  have hl := le_antisymm (key l l' h h') (key l' l h' h)
  apply List.ext_getElem? 
  intro j
  by_cases hj : j < l.length
  · rw [h.1 j hj, h'.1 j (hl ▸ hj)]
  · rw [List.getElem?_eq_none (by omega), List.getElem?_eq_none (by omega)]

/-- **C42**, list form, flag given with something after it: the position of the flag is returned and the arguments following it, up to the next one starting
with '-', are appended.  Missing: the cases of the two refutations below, in which the code does not do what a caller expects. -/
theorem _root_.FMV.C42_list_partial {α : Type} (conv : Str → α) (argv : List Str) (flag : Str) (vals : List α) (k : Nat) (h : FlagAt argv flag k)
    (hk : k + 1 < argv.length) : ∃ l, ArgsFrom argv (k+1) l ∧ parseList conv argv flag vals = some ((k : Int), vals ++ l.map conv) :=
  parseList_from conv argv flag vals k (k+1) ((C42_find argv flag k).2 h) (by omega) hk

/-- **C42**, list form, refuted when the flag is absent: the output is not left untouched, the program's own name and the arguments after it are appended. -/
theorem _root_.FMV.C42_refuted_list_absent {α : Type} (conv : Str → α) (argv : List Str) (flag : Str) (vals : List α) (h : FlagAbsent argv flag)
    (prog : Str) (rest : List Str) (ha : argv = prog :: rest) (hp : prog.head? ≠ some '-') :
    ∃ l, ArgsFrom argv 0 l ∧ parseList conv argv flag vals = some (-1, vals ++ l.map conv) ∧ l.head? = some prog := by
  obtain ⟨l, h1, h2⟩ := parseList_from conv argv flag vals (-1) 0 ((C42_find_absent argv flag).2 h) (by omega) (by rw [ha]; simp)
  refine ⟨l, h1, h2, ?_⟩
  have hl : 0 < l.length := by
    rcases Nat.eq_zero_or_pos l.length with h0 | h0
    · rcases h1.2.2 with h3 | ⟨a, h3, h4⟩
      · rw [ha] at h3; simp at h3; omega
      · rw [h0, ha] at h3
        have : prog = a := by simpa using h3
        exact absurd (this ▸ h4) hp
    · exact h0
  have := h1.1 0 hl
  rw [ha] at this
  rw [List.head?_eq_getElem?]
  simpa using this

/-- **C42**, list form, refuted when the flag is the last argument: the null pointer `argv[argc]` is read. -/
theorem _root_.FMV.C42_refuted_list_last {α : Type} (conv : Str → α) (argv : List Str) (flag : Str) (vals : List α) (k : Nat) (h : FlagAt argv flag k)
    (hl : k + 1 = argv.length) : parseList conv argv flag vals = none := by
  unfold parseList
  rw [(C42_find argv flag k).2 h]
  dsimp only
  rw [show ((k : Int) + 1).toNat = argv.length by omega, List.drop_length]
  rfl

/-- `./test -t 1 -d 3 4 -x`: `-t` is at 1 with the value "1", `-d` collects "3" and "4", `-x` is last, `-q` absent -/
def exArgv : List Str := ["./test".toList, "-t".toList, "1".toList, "-d".toList, "3".toList, "4".toList, "-x".toList]

example : FlagAt exArgv "-t".toList 1 ∧ FlagAt exArgv "-d".toList 3 ∧ FlagAt exArgv "-x".toList 6 ∧ FlagAbsent exArgv "-q".toList ∧
    parseScalar id exArgv "-t".toList [] = (2, "1".toList) ∧ parseList id exArgv "-d".toList [] = some (3, ["3".toList, "4".toList]) := by
  refine ⟨(C42_find _ _ _).1 (by decide), (C42_find _ _ _).1 (by decide), (C42_find _ _ _).1 (by decide), (C42_find_absent _ _).1 (by decide), by decide, by decide⟩

end FMV.Console
