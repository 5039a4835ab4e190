import Verif.Props.CFG
/-!
# C44: solver lines with arguments that cannot be read
-/
namespace FMV.CFG
open Console Spec
variable {F : Type} [Arith F]

/-- An argument of the line `solver = name,x` that the solver's constructor cannot take: not a number (of the right sort), or not the name of a heuristic. -/
inductive BadNumber (L : Lex F) : Str → Str → Prop
  | gmm (x) : L.dbl x = none → BadNumber L "gmm".toList x
  | fim (x) : L.dbl x = none → BadNumber L "fim".toList x
  | ufmm (x) : L.uns x = none → BadNumber L "ufmm".toList x
  | fsm (x) : L.uns x = none → BadNumber L "fsm".toList x
  | lsm (x) : L.uns x = none → BadNumber L "lsm".toList x

theorem round_two (L : Lex F) (solver s a x : Str) (h : Items s [a, x]) (ha : a ≠ []) (hx : 2 ≤ x.length) (o : Outcome F) :
    Round L solver s o ↔ o = makeWith L solver s [a, x] := by
  have hxe : x ≠ [] := by rintro rfl; simp at hx
  have hne : ∀ it ∈ [a, x], it ≠ [] := by
    intro it hi
    rcases List.mem_cons.1 hi with rfl | hi
    · exact ha
    · rw [List.mem_singleton.1 hi]; exact hxe
  have hsp := C43_split_partial s [a, x] h hne (by simp) (by simp; omega)
  unfold Round
  rw [if_neg (items_text_ne h hne)]
  constructor
  · rintro ⟨p, hp, rfl⟩; rw [(hsp p).1 hp]
  · rintro rfl; exact ⟨_, (hsp _).2 rfl, rfl⟩

/-- **C44**: a solver line `solver = name,x` whose numeric argument cannot be read as a number creates nothing: the configuration ends with an exception (which
`configure` does not catch), and no solver with a made-up argument takes part in the benchmark. -/
theorem _root_.FMV.C44_bad_number (L : Lex F) (solver s a x : Str) (h : Items s [a, x]) (ha : a ≠ []) (hx : 2 ≤ x.length) (hb : BadNumber L solver x)
    (o : Outcome F) : Round L solver s o ↔ o = .throws := by
  rw [round_two L solver s a x h ha hx]
  have : makeWith L solver s [a, x] = .throws := by
    cases hb <;> (simp [makeWith, makeCast, *]; done)
  rw [this]

/-- **C44**, refuted for misspelt heuristics: `fmmstar = name,x` with `x` neither `TIME` nor `DISTANCE` (for instance `time`) adds an uninitialised pointer. -/
theorem _root_.FMV.C44_refuted_heuristic (L : Lex F) (solver s a x : Str) (h : Items s [a, x]) (ha : a ≠ []) (hx : 2 ≤ x.length)
    (hsv : solver = "fmmstar".toList ∨ solver = "fmmfibstar".toList ∨ solver = "sfmmstar".toList) (h1 : x ≠ "TIME".toList) (h2 : x ≠ "DISTANCE".toList)
    (o : Outcome F) : Round L solver s o ↔ o = .uninit := by
  rw [round_two L solver s a x h ha hx]
  have : makeWith L solver s [a, x] = .uninit := by
    have key : ∀ d hp, (makeStar d hp [a, x] : Outcome F) = .uninit := by
      intro d hp; unfold makeStar; dsimp only; rw [if_neg h1, if_neg h2]
    rcases hsv with rfl | rfl | rfl
    · exact key false .dary
    · exact key false .fib
    · exact key true .pq
  rw [this]

/-- **C44**: a line that throws ends `configure`: no list of solvers is the result. -/
theorem _root_.FMV.C44_bad_stops (L : Lex F) (lines rest : List (Str × Str)) (solver s : Str) (hb : ∀ o, Round L solver s o → o = .throws) (ms : List (Made F)) :
    ¬ Configures L (lines ++ (solver, s) :: rest) ms := by
  induction lines generalizing ms with
  | nil =>
    intro h
    cases h with
    | add _ _ m hr _ => cases hb _ hr
    | skip _ _ hr _ => cases hb _ hr
  | cons p l ih =>
    intro h
    cases h with
    | add _ _ m _ h' => exact ih _ h'
    | skip _ _ _ h' => exact ih _ h'

/-- non-vacuity: `fsm=Mine,ten` when `ten` is not a number -/
example (L : Lex F) (h : L.uns "ten".toList = none) : BadNumber L "fsm".toList "ten".toList ∧ Items "Mine,ten".toList ["Mine".toList, "ten".toList] :=
  ⟨.fsm _ h, ⟨by decide, by decide, by decide⟩⟩

end FMV.CFG
