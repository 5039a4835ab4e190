import Verif.Spec.CFG
import Mathlib.Tactic.Ring
import Mathlib.Tactic.Linarith
import Mathlib.Data.List.Infix
/-
C43, C44: the benchmark configuration file.
-/
namespace FMV.CFG
open Console Spec

/-! ## `getline` on comma-separated items -/

theorem takeWhile_item {x tl : Str} (hx : ',' ∉ x) : (x ++ ',' :: tl).takeWhile (· ≠ ',') = x := by
  rw [List.takeWhile_append_of_pos]
  · simp
  · intro c hc; simpa using fun h : c = ',' => hx (h ▸ hc)

theorem dropWhile_item {x tl : Str} (hx : ',' ∉ x) : (x ++ ',' :: tl).dropWhile (· ≠ ',') = ',' :: tl := by
  rw [List.dropWhile_append_of_pos]
  · simp
  · intro c hc; simpa using fun h : c = ',' => hx (h ▸ hc)

theorem getline_cons {x y : Str} {l : List Str} (hx : ',' ∉ x) (i : Str) :
    getline ⟨List.intercalate [','] (x :: y :: l), true⟩ i = (⟨List.intercalate [','] (y :: l), true⟩, x) := by
  have : List.intercalate [','] (x :: y :: l) = x ++ ',' :: List.intercalate [','] (y :: l) := by
    simp [List.intercalate, List.intersperse]
  unfold getline
  rw [if_pos rfl]
  dsimp only
  rw [this, takeWhile_item hx, dropWhile_item hx]

theorem getline_last {x : Str} (hx : ',' ∉ x) (i : Str) : getline ⟨List.intercalate [','] [x], true⟩ i = (⟨[], false⟩, x) := by
  have h1 : List.intercalate [','] [x] = x := by simp [List.intercalate]
  have h2 : x.takeWhile (· ≠ ',') = x := by
    have := List.takeWhile_append_of_pos (p := fun c => decide (c ≠ ',')) (l₁ := x) (l₂ := []) (fun c hc => by simpa using fun h : c = ',' => hx (h ▸ hc))
    simpa using this
  have h3 : x.dropWhile (· ≠ ',') = [] := by
    have := List.dropWhile_append_of_pos (p := fun c => decide (c ≠ ',')) (l₁ := x) (l₂ := []) (fun c hc => by simpa using fun h : c = ',' => hx (h ▸ hc))
    simpa using this
  unfold getline
  rw [if_pos rfl]
  dsimp only
  rw [h1, h2, h3]

theorem getline_bad (r i : Str) : getline ⟨r, false⟩ i = (⟨r, false⟩, i) := rfl

/-! ## The loop of `split` -/

theorem SplitLoop.det {n : Nat} {t : SplitSt} {r r' : List Str} (h : SplitLoop n t r) : SplitLoop n t r' → r = r' := by
  induction h with
  | stop t hn => intro h'; cases h' with
    | stop _ _ => rfl
    | step _ _ hp _ => exact absurd hp hn
  | step t r hp _ ih => intro h'; cases h' with
    | stop _ hn => exact absurd hp hn
    | step _ _ _ h'' => exact ih h''

/-- total length of a list of items -/
def total (l : List Str) : Nat := (l.map List.length).sum

theorem total_cons (x : Str) (l : List Str) : total (x :: l) = x.length + total l := by simp [total]

/-- all items are read if the position before the last one is still below the bound -/
theorem loop_all {n : Nat} {r : List Str} : ∀ (l : List Str) (x : Str) (E : List Str) (i : Str) (p : Nat), (∀ it ∈ l ++ [x], ',' ∉ it) → p + total l < n →
    (SplitLoop n ⟨⟨List.intercalate [','] (l ++ [x]), true⟩, i, E, p⟩ r ↔ SplitLoop n ⟨⟨[], false⟩, x, E ++ l ++ [x], p + total l + x.length⟩ r)
  | [], x, E, i, p, hc, hp => by
    have hb : splitBody ⟨⟨List.intercalate [','] ([] ++ [x]), true⟩, i, E, p⟩ = ⟨⟨[], false⟩, x, E ++ [] ++ [x], p + total [] + x.length⟩ := by
      unfold splitBody
      rw [List.nil_append, getline_last (hc x (by simp))]
      simp [total]
    rw [← hb]
    constructor
    · intro h; cases h with
      | stop _ hn => exact absurd (by simpa [total] using hp) hn
      | step _ _ _ h => exact h
    · intro h; exact .step _ _ (by simpa [total] using hp) h
  | y :: l, x, E, i, p, hc, hp => by
    rw [total_cons] at hp
    have hb : splitBody ⟨⟨List.intercalate [','] (y :: l ++ [x]), true⟩, i, E, p⟩ =
        ⟨⟨List.intercalate [','] (l ++ [x]), true⟩, y, E ++ [y], p + y.length⟩ := by
      have hy := hc y (by simp)
      unfold splitBody
      cases l with
      | nil => rw [show [y] ++ [x] = y :: x :: [] from rfl, getline_cons hy]; rfl
      | cons z l => rw [show y :: z :: l ++ [x] = y :: z :: (l ++ [x]) from rfl, getline_cons hy]; rfl
    have ih := loop_all (n := n) (r := r) l x (E ++ [y]) y (p + y.length) (fun it h => hc it (by simp at h ⊢; tauto)) (by omega)
    have e : (⟨⟨[], false⟩, x, E ++ [y] ++ l ++ [x], p + y.length + total l + x.length⟩ : SplitSt) =
        ⟨⟨[], false⟩, x, E ++ (y :: l) ++ [x], p + total (y :: l) + x.length⟩ := by
      rw [total_cons]; simp [Nat.add_assoc]
    rw [e] at ih
    rw [← ih, ← hb]
    constructor
    · intro h; cases h with
      | stop _ hn => exact absurd (show p < n by omega) hn
      | step _ _ _ h => exact h
    · intro h; exact .step _ _ (show p < n by omega) h

/-- if the bound is reached before the last item, the loop stops early -/
theorem loop_early {n : Nat} : ∀ (l : List Str) (x : Str) (E : List Str) (i : Str) (p : Nat), (∀ it ∈ l ++ [x], ',' ∉ it) → n ≤ p + total l →
    ∃ k, k ≤ l.length ∧ SplitLoop n ⟨⟨List.intercalate [','] (l ++ [x]), true⟩, i, E, p⟩ (E ++ l.take k)
  | [], x, E, i, p, hc, hp => ⟨0, le_refl _, by
      rw [List.take_zero, List.append_nil]
      exact SplitLoop.stop (size := n) ⟨⟨List.intercalate [','] ([] ++ [x]), true⟩, i, E, p⟩ (by simpa [total] using hp)⟩
  | y :: l, x, E, i, p, hc, hp => by
    by_cases hn : p < n
    · rw [total_cons] at hp
      have hb : splitBody ⟨⟨List.intercalate [','] (y :: l ++ [x]), true⟩, i, E, p⟩ =
          ⟨⟨List.intercalate [','] (l ++ [x]), true⟩, y, E ++ [y], p + y.length⟩ := by
        have hy := hc y (by simp)
        unfold splitBody
        cases l with
        | nil => rw [show [y] ++ [x] = y :: x :: [] from rfl, getline_cons hy]; rfl
        | cons z l => rw [show y :: z :: l ++ [x] = y :: z :: (l ++ [x]) from rfl, getline_cons hy]; rfl
      obtain ⟨k, hk, h⟩ := loop_early (n := n) l x (E ++ [y]) y (p + y.length) (fun it h => hc it (by simp at h ⊢; tauto)) (by omega)
      refine ⟨k+1, by simpa using hk, ?_⟩
      refine .step _ _ hn ?_
      rw [hb]
      simpa using h
    · exact ⟨0, by omega, by simpa using SplitLoop.stop (size := n) ⟨⟨List.intercalate [','] (y :: l ++ [x]), true⟩, i, E, p⟩ hn⟩

/-- when the stream is exhausted the last item is pushed again and again -/
theorem loop_repeat {n : Nat} {x : Str} (hx : x ≠ []) : ∀ (d : Nat) (E : List Str) (p : Nat), n ≤ p + d →
    ∃ m, SplitLoop n ⟨⟨[], false⟩, x, E, p⟩ (E ++ List.replicate m x) ∧ (p < n → 0 < m) ∧ (n ≤ p → m = 0)
  | 0, E, p, h => ⟨0, by simpa using SplitLoop.stop (size := n) ⟨⟨[], false⟩, x, E, p⟩ (by simpa using h), by omega, fun _ => rfl⟩
  | d+1, E, p, h => by
    have hlen : 0 < x.length := List.length_pos_of_ne_nil hx
    by_cases hp : p < n
    · obtain ⟨m, h1, _, _⟩ := loop_repeat (n := n) hx d (E ++ [x]) (p + x.length) (by omega)
      refine ⟨m+1, .step _ _ hp ?_, by omega, by omega⟩
      have : splitBody ⟨⟨[], false⟩, x, E, p⟩ = ⟨⟨[], false⟩, x, E ++ [x], p + x.length⟩ := rfl
      rw [this, List.replicate_succ]
      simpa using h1
    · exact ⟨0, by simpa using SplitLoop.stop (size := n) ⟨⟨[], false⟩, x, E, p⟩ hp, by omega, fun _ => rfl⟩

/-- an empty last item is pushed for ever -/
theorem loop_hang {n : Nat} {t : SplitSt} {r : List Str} (h : SplitLoop n t r) : t.ss.good = false → t.item = [] → ¬ t.pos < n := by
  induction h with
  | stop t hn => intro _ _; exact hn
  | step t r hp _ ih =>
    intro h1 h2
    have hb : splitBody t = { t with elems := t.elems ++ [[]] } := by
      obtain ⟨⟨rest, good⟩, item, elems, pos⟩ := t
      dsimp only at h1 h2
      subst h1 h2
      rfl
    rw [hb] at ih
    exact ih h1 h2

/-! ## C43 -/

theorem text_length : ∀ (l : List Str) (x : Str), (List.intercalate [','] (l ++ [x])).length = total l + x.length + l.length
  | [], x => by simp [List.intercalate, total]
  | y :: l, x => by
    have : List.intercalate [','] (y :: l ++ [x]) = y ++ ',' :: List.intercalate [','] (l ++ [x]) := by
      cases l <;> simp [List.intercalate, List.intersperse]
    rw [this, total_cons]
    have := text_length l x
    simp only [List.length_append, List.length_cons, this]
    omega

theorem size_of {s : Str} {l : List Str} {x : Str} (hs : s = List.intercalate [','] (l ++ [x])) (hpos : 0 < total l + x.length + l.length) :
    splitSize s = total l + x.length + l.length - 1 := by
  unfold splitSize
  rw [hs, text_length, if_neg (by omega)]

theorem split_last {l : List Str} (hne : l ≠ []) : ∃ l' x, l = l' ++ [x] := ⟨l.dropLast, l.getLast hne, (List.dropLast_append_getLast hne).symm⟩

/-- **C43**: exactly when the items of a parameter text come out as they are: a single item of at least three characters, two items of which the second has at
least two characters, or three items.  (Items are non-empty.) -/
theorem _root_.FMV.C43_split_iff (s : Str) (l : List Str) (x : Str) (h : Items s (l ++ [x])) (hne : ∀ it ∈ l ++ [x], it ≠ []) :
    Split s (l ++ [x]) ↔ (l.length = 0 ∧ 3 ≤ x.length) ∨ (l.length = 1 ∧ 2 ≤ x.length) ∨ l.length = 2 := by
  have hx : 0 < x.length := List.length_pos_of_ne_nil (hne x (by simp))
  have hz := size_of h.text (by omega)
  unfold Split splitInit
  rw [hz, h.text]
  by_cases hc : 1 + total l < total l + x.length + l.length - 1
  · rw [loop_all l x [] [] 1 h.comma hc]
    obtain ⟨m, h1, h2, h3⟩ := loop_repeat (n := total l + x.length + l.length - 1) (hne x (by simp)) (total l + x.length + l.length)
      ([] ++ l ++ [x]) (1 + total l + x.length) (by omega)
    constructor
    · intro h4
      have h5 := h4.det h1
      have hm : m = 0 := by
        have := congrArg List.length h5
        simp at this
        omega
      by_contra hcon
      have : 0 < m := h2 (by omega)
      omega
    · intro h4
      have hm : m = 0 := h3 (by omega)
      rw [hm] at h1
      simpa using h1
  · obtain ⟨k, hk, h1⟩ := loop_early (n := total l + x.length + l.length - 1) l x [] [] 1 h.comma (by omega)
    constructor
    · intro h4
      have := congrArg List.length (h4.det h1)
      simp at this
      omega
    · intro h4
      exfalso
      omega

/-- **C43**, positive part: what the CFG files shipped with the project use.  Missing: the parameter texts of the refutations below. -/
theorem _root_.FMV.C43_split_partial (s : Str) (l : List Str) (h : Items s l) (hne : ∀ it ∈ l, it ≠ []) (h3 : l.length ≤ 3)
    (hlast : l.length + (l.getLast h.ne).length ≥ 4) (r : List Str) : Split s r ↔ r = l := by
  obtain ⟨l', x, rfl⟩ := split_last h.ne
  have hx : 0 < x.length := List.length_pos_of_ne_nil (hne x (by simp))
  rw [List.getLast_append_singleton] at hlast
  simp only [List.length_append, List.length_singleton] at h3 hlast
  have hs := (C43_split_iff s l' x h hne).2 (by omega)
  exact ⟨fun h' => h'.det hs, fun h' => h' ▸ hs⟩

/-- **C43**, refuted for four or more items: the last one is duplicated. -/
theorem _root_.FMV.C43_refuted_long (s : Str) (l : List Str) (x : Str) (h : Items s (l ++ [x])) (hx : x ≠ []) (h4 : 3 ≤ l.length) :
    ∃ m, 0 < m ∧ Split s (l ++ [x] ++ List.replicate m x) := by
  have hx' : 0 < x.length := List.length_pos_of_ne_nil hx
  have hz := size_of h.text (by omega)
  obtain ⟨m, h1, h2, _⟩ := loop_repeat (n := total l + x.length + l.length - 1) hx (total l + x.length + l.length)
      ([] ++ l ++ [x]) (1 + total l + x.length) (by omega)
  refine ⟨m, h2 (by omega), ?_⟩
  unfold Split splitInit
  rw [hz, h.text, loop_all l x [] [] 1 h.comma (by omega)]
  simpa using h1

/-- **C43**, refuted for two items of which the second has one character: it is lost. -/
theorem _root_.FMV.C43_refuted_short (s a x : Str) (h : Items s [a, x]) (ha : a ≠ []) (hx : x.length = 1) : Split s [a] := by
  have ha' : 0 < a.length := List.length_pos_of_ne_nil ha
  have hz := size_of (l := [a]) h.text (by simp)
  have hb := getline_cons (l := []) (y := x) (h.comma a (by simp)) []
  unfold Split splitInit
  rw [hz, h.text]
  refine .step _ _ ?_ ?_
  · simp [total, hx]; omega
  · unfold splitBody
    dsimp only
    rw [hb]
    refine .stop _ ?_
    simp [total, hx]; try omega

/-- **C43**, refuted for a single item of one or two characters: it is lost. -/
theorem _root_.FMV.C43_refuted_tiny (s : Str) (h1 : 0 < s.length) (h2 : s.length ≤ 2) : Split s [] :=
  .stop _ (by unfold splitSize splitInit; rw [if_neg (by omega)]; dsimp only; omega)

/-- **C43**, refuted: with four or more items of which the last is empty the program never ends (it pushes empty strings until memory runs out). -/
theorem _root_.FMV.C43_refuted_hang (s : Str) (l : List Str) (h : Items s (l ++ [[]])) (h4 : 3 ≤ l.length) : ¬ ∃ r, Split s r := by
  rintro ⟨r, hr⟩
  have hz := size_of h.text (by omega)
  unfold Split splitInit at hr
  rw [hz, h.text, loop_all l [] [] [] 1 h.comma (by simp; omega)] at hr
  exact loop_hang hr rfl rfl (by simp; omega)

/-- **C43** for the coordinates (`start`, `goal`, `dimsize`): if the text has exactly N items they are all converted, in order. -/
theorem _root_.FMV.C43_coordinates {α : Type} (cast : Str → Option α) (s : Str) (l : List Str) (h : Items s l) (vs : List α)
    (hc : l.map cast = vs.map some) : splitAndCast cast l.length s = some vs := by
  have key : ∀ (l : List Str) (i : Str) (vs : List α), l ≠ [] → (∀ it ∈ l, ',' ∉ it) → l.map cast = vs.map some →
      castLoop cast l.length ⟨List.intercalate [','] l, true⟩ i = some vs := by
    intro l
    induction l with
    | nil => intro i vs hne; exact absurd rfl hne
    | cons x l ih =>
      intro i vs _ hcm hv
      cases vs with
      | nil => simp at hv
      | cons a vs =>
        simp only [List.map_cons, List.cons.injEq] at hv
        have hx := hcm x (by simp)
        cases l with
        | nil =>
          have : vs = [] := by simpa using hv.2.symm
          subst this
          simp only [List.length_cons, List.length_nil, castLoop]
          rw [getline_last hx]
          simp [hv.1]
        | cons y l =>
          rw [List.length_cons, castLoop]
          rw [getline_cons hx]
          dsimp only
          rw [hv.1, ih x vs (by simp) (fun it hi => hcm it (by simp at hi ⊢; tauto)) hv.2]
          rfl
  unfold splitAndCast
  rw [h.text]
  exact key l [] vs h.ne h.comma hc

/-- non-vacuity: the shipped "myUFMM3,1001,2.01" is split correctly; "a,b,c,d" is not; "FSM,5" loses the number; "a,b,c," hangs -/
example : Split "myUFMM3,1001,2.01".toList ["myUFMM3".toList, "1001".toList, "2.01".toList] ∧ Split "FSM,5".toList ["FSM".toList] ∧
    (∃ m, 0 < m ∧ Split "a,b,c,d".toList (["a".toList, "b".toList, "c".toList] ++ ["d".toList] ++ List.replicate m "d".toList)) ∧
    ¬ ∃ r, Split "a,b,c,".toList r :=
  ⟨(C43_split_iff _ ["myUFMM3".toList, "1001".toList] "2.01".toList ⟨by decide, by decide, by decide⟩ (by decide)).2 (by decide),
   C43_refuted_short _ _ "5".toList ⟨by decide, by decide, by decide⟩ (by decide) (by decide),
   C43_refuted_long _ _ _ ⟨by decide, by decide, by decide⟩ (by decide) (by decide),
   C43_refuted_hang _ ["a".toList, "b".toList, "c".toList] ⟨by decide, by decide, by decide⟩ (by decide)⟩

/-! ## C44 -/
variable {F : Type} [Arith F]

theorem Round.det {L : Lex F} {n p : Str} {o o' : Outcome F} (h : Round L n p o) (h' : Round L n p o') : o = o' := by
  unfold Round at h h'
  split at h
  · next hp => rw [if_pos hp] at h'; rw [h, h']
  · next hp =>
    rw [if_neg hp] at h'
    obtain ⟨q, h1, rfl⟩ := h
    obtain ⟨q', h2, rfl⟩ := h'
    rw [h1.det h2]

theorem items_text_ne {s : Str} {l : List Str} (h : Items s l) (hne : ∀ it ∈ l, it ≠ []) : s ≠ [] := by
  obtain ⟨l', x, rfl⟩ := split_last h.ne
  intro hs
  have := congrArg List.length h.text
  rw [hs, text_length] at this
  have hx : 0 < x.length := List.length_pos_of_ne_nil (hne x (by simp))
  simp at this
  omega

/-- **C44**, solver lines without parameters: every recognised solver is created, with its default arguments and its default name. -/
theorem _root_.FMV.C44_default (L : Lex F) (solver : Str) (m : Made F) (h : Wanted L solver [] m) (o : Outcome F) :
    Round L solver [] o ↔ o = .add m := by
  obtain ⟨h1, h2, _⟩ := h
  have h2 := h2 rfl
  have key : makeDefault L solver = .add m := by
    obtain ⟨kind, heap, name⟩ := m
    dsimp only at h1 h2
    generalize hargs : List.drop 1 ([] : List Str) = args at h1
    cases h1 <;> first
      | (simp at hargs; done)
      | (simp [defaultNames] at h2; subst h2; rfl)
  unfold Round
  rw [if_pos rfl, key]

/-- **C44**, solver lines with parameters: the solver of the named class is created with the given name and arguments.  Missing: `ddqm` with a name, and the
parameter texts that `split` does not handle (refuted below and in C43). -/
theorem _root_.FMV.C44_params_partial (L : Lex F) (solver : Str) (s : Str) (l : List Str) (h : Items s l) (hne : ∀ it ∈ l, it ≠ []) (h3 : l.length ≤ 3)
    (hlast : l.length + (l.getLast h.ne).length ≥ 4) (hd : solver ≠ "ddqm".toList) (m : Made F) (hw : Wanted L solver l m) (o : Outcome F) :
    Round L solver s o ↔ o = .add m := by
  have hsp := C43_split_partial s l h hne h3 hlast
  have hs := items_text_ne h hne
  have key : makeWith L solver s l = .add m := by
    obtain ⟨kind, heap, name⟩ := m
    obtain ⟨h1, _, h2⟩ := hw
    have h2 := h2 h.ne
    dsimp only at h1 h2
    cases l with
    | nil => exact absurd rfl h.ne
    | cons n rest =>
      have hn : n = name := by simpa using h2
      subst hn
      rw [show List.drop 1 (n :: rest) = rest from rfl] at h1
      have hone : rest = [] → s = n := by rintro rfl; rw [h.text]; simp [List.intercalate]
      cases h1 <;> first
        | exact absurd rfl hd
        | rfl
        | (rw [hone rfl]; rfl)
        | (simp [makeWith, makeCast, *]; done)
  unfold Round
  rw [if_neg hs]
  constructor
  · rintro ⟨p, hp, rfl⟩; rw [(hsp p).1 hp, key]
  · rintro rfl; exact ⟨l, (hsp l).2 rfl, key.symm⟩

/-- **C44**: the solvers are created in file order, one per recognised line. -/
theorem _root_.FMV.C44_order (L : Lex F) (lines : List (Str × Str)) (ms : List (Made F)) (hl : lines.length = ms.length)
    (h : ∀ i (h1 : i < lines.length) (h2 : i < ms.length), ∀ o, Round L lines[i].1 lines[i].2 o ↔ o = .add ms[i]) (ms' : List (Made F)) :
    Configures L lines ms' ↔ ms' = ms := by
  induction lines generalizing ms ms' with
  | nil =>
    have : ms = [] := by simpa using hl.symm
    subst this
    constructor
    · intro h; cases h; rfl
    · rintro rfl; exact .nil
  | cons c cs ih =>
    cases ms with
    | nil => simp at hl
    | cons m ms =>
      have h0 : ∀ o, Round L c.1 c.2 o ↔ o = .add m := h 0 (by simp) (by simp)
      have hi := fun ms' => ih ms (by simpa using hl) (fun i h1 h2 => h (i+1) (by simpa using h1) (by simpa using h2)) ms'
      constructor
      · intro hc
        cases hc with
        | add n p m' hr hc =>
          have := (h0 _).1 hr
          injection this with this
          rw [this, (hi _).1 hc]
        | skip n p hr hc => have := (h0 _).1 hr; cases this
      · rintro rfl
        exact .add c.1 c.2 m ((h0 _).2 rfl) ((hi _).2 rfl)

/-- **C44**: a line of the file is taken as a solver line iff its key is `solvers.` followed by a known name, in any mixture of cases; its value is kept. -/
theorem _root_.FMV.C44_read (key val : Str) : readLine key val = [] ∨ ∃ n ∈ knownSolvers, readLine key val = [(n, val)] ∧ key.map Char.toLower = "solvers.".toList ++ n := by
  unfold readLine
  dsimp only
  split
  · next h =>
    by_cases hk : (key.map Char.toLower).drop 8 ∈ knownSolvers
    · right
      refine ⟨_, hk, ?_, by rw [← h, List.take_append_drop]⟩
      have hf : ∀ k ∈ knownSolvers, knownSolvers.filter (fun n => k = n) = [k] := by decide
      rw [hf _ hk]; rfl
    · left
      rw [List.map_eq_nil_iff, List.filter_eq_nil_iff]
      intro a ha hc
      simp only [decide_eq_true_eq] at hc
      exact hk (hc ▸ ha)
  · left; rfl

/-- **C44**: ... and conversely. -/
theorem _root_.FMV.C44_read_known (key val : Str) (n : Str) (hn : n ∈ knownSolvers) (hk : key.map Char.toLower = "solvers.".toList ++ n) :
    readLine key val = [(n, val)] := by
  unfold readLine
  dsimp only
  rw [hk, if_pos (by rfl)]
  have hf : ∀ k ∈ knownSolvers, knownSolvers.filter (fun n => k = n) = [k] := by decide
  have e : List.drop 8 ("solvers.".toList ++ n) = n := by rfl
  rw [e, hf _ hn]; rfl

/-- **C44**, refuted for `ddqm` with a name: an LSM is created. -/
theorem _root_.FMV.C44_refuted_ddqm (L : Lex F) (s : Str) (h : ',' ∉ s) (h3 : 3 ≤ s.length) (o : Outcome F) :
    Round L "ddqm".toList s o ↔ o = .add ⟨.lsm (2^32 - 1), .dary, s⟩ := by
  have hne : s ≠ [] := by rintro rfl; simp at h3
  have hi : Items s [s] := ⟨by simp, by simpa using h, by simp [List.intercalate]⟩
  have hsp := C43_split_partial s [s] hi (by simpa using hne) (by simp) (by simp; omega)
  unfold Round
  rw [if_neg hne]
  constructor
  · rintro ⟨p, hp, rfl⟩; rw [(hsp p).1 hp]; rfl
  · rintro rfl; exact ⟨[s], (hsp _).2 rfl, rfl⟩

/-- **C44**, refuted for one-digit parameters: `fsm=NAME,5` creates an FSM without the limit of 5 sweeps (the same holds for the other solvers with numeric
parameters). -/
theorem _root_.FMV.C44_refuted_digit (L : Lex F) (s a : Str) (x : Str) (h : Items s [a, x]) (ha : a ≠ []) (hx : x.length = 1) (o : Outcome F) :
    Round L "fsm".toList s o ↔ o = .add ⟨.fsm (2^32 - 1), .dary, a⟩ := by
  have hs := C43_refuted_short s a x h ha hx
  have hne : s ≠ [] := items_text_ne h (by intro it hi; simp at hi; rcases hi with rfl | rfl; exact ha; rintro rfl; simp at hx)
  unfold Round
  rw [if_neg hne]
  constructor
  · rintro ⟨p, hp, rfl⟩; rw [hp.det hs]; rfl
  · rintro rfl; exact ⟨[a], hs, rfl⟩

/-- **C44**, refuted for short names: `gmm=G1` adds an uninitialised pointer to the benchmark. -/
theorem _root_.FMV.C44_refuted_uninit (L : Lex F) (s : Str) (h1 : 0 < s.length) (h2 : s.length ≤ 2) (o : Outcome F) :
    Round L "gmm".toList s o ↔ o = .uninit := by
  have hs := C43_refuted_tiny s h1 h2
  have hne : s ≠ [] := by rintro rfl; simp at h1
  unfold Round
  rw [if_neg hne]
  constructor
  · rintro ⟨p, hp, rfl⟩; rw [hp.det hs]; rfl
  · rintro rfl; exact ⟨[], hs, rfl⟩

/-- non-vacuity: `sfmmstar=Mine,DISTANCE` and an empty `ufmm=` line -/
example (L : Lex F) : Wanted L "sfmmstar".toList ["Mine".toList, "DISTANCE".toList] ⟨.fmm true .distance, .pq, "Mine".toList⟩ ∧
    Items "Mine,DISTANCE".toList ["Mine".toList, "DISTANCE".toList] ∧
    Wanted L "ufmm".toList [] ⟨.ufmm 1000 (Arith.ofNat 2) L.ub, .dary, "UFMM".toList⟩ :=
  ⟨⟨.sfmmstarD, (fun h => by cases h), fun _ => rfl⟩, ⟨by decide, by decide, by decide⟩, ⟨.ufmm, fun _ => (by decide : ("ufmm".toList, "UFMM".toList) ∈ defaultNames), fun h => absurd rfl h⟩⟩

/-- non-vacuity: two lines of a file -/
example (L : Lex F) : Configures L [("fmm".toList, []), ("ddqm".toList, [])] [⟨.fmm false .none, .dary, "FMM".toList⟩, ⟨.ddqm, .dary, "DDQM".toList⟩] :=
  (C44_order L _ _ rfl (by
    intro i h1 h2
    have hi : i = 0 ∨ i = 1 := by simp at h1; omega
    rcases hi with rfl | rfl
    · exact C44_default L _ _ ⟨.fmm, fun _ => (by decide : ("fmm".toList, "FMM".toList) ∈ defaultNames), fun h => absurd rfl h⟩
    · exact C44_default L _ _ ⟨.ddqm, fun _ => (by decide : ("ddqm".toList, "DDQM".toList) ∈ defaultNames), fun h => absurd rfl h⟩) _).2 rfl

end FMV.CFG
