import Verif.Model.ListIter
import Verif.Lemmas.FIMAcc64
import Verif.Props.FIMAcc64
import Verif.Props.GoalStop
/-! C105: the iterators of FIM and GMM leave their lists; on a circular list the loops do what the other theorems assume. -/
set_option linter.unusedSectionVars false
set_option linter.unusedVariables false
namespace FMV
open Arith FMM Spec ListIter
variable {F : Type} [Arith F]

namespace FIM

theorem testNbrIt_eq (eik : Eik F) (l : List Nat) : ∀ (s : St F), l.foldl (testNbrIt eik) (s.g, (⟨s.before, s.after⟩ : It)) =
    ((l.foldl (testNbr eik) s).g, ⟨(l.foldl (testNbr eik) s).before, (l.foldl (testNbr eik) s).after⟩) ∧ (l.foldl (testNbr eik) s).after = s.after ∧
    (l.foldl (testNbr eik) s).stop = s.stop := by
  induction l with
  | nil => intro s; exact ⟨rfl, rfl, rfl⟩
  | cons n l ih =>
    intro s
    have h1 : testNbrIt eik (s.g, (⟨s.before, s.after⟩ : It)) n = ((testNbr eik s n).g, ⟨(testNbr eik s n).before, (testNbr eik s n).after⟩) ∧ (testNbr eik s n).after = s.after ∧
        (testNbr eik s n).stop = s.stop := by
      unfold testNbrIt testNbr
      simp only
      split
      · exact ⟨rfl, rfl, rfl⟩
      · split <;> exact ⟨rfl, rfl, rfl⟩
    rw [List.foldl_cons, List.foldl_cons, h1.1]
    obtain ⟨a, b, c⟩ := ih (testNbr eik s n)
    exact ⟨a, by rw [b, h1.2.1], by rw [c, h1.2.2]⟩

/-- what the body does in either reading -/
theorem bodyIt_eq (circ : Bool) (E : F) (goal : Nat) (eik : Eik F) (g : Grid F) (before : List Nat) (x : Nat) (rest : List Nat) (stop : Bool) :
    bodyIt circ E goal eik (g, ⟨before, x :: rest⟩, stop) =
      if circ = false ∧ (visit E goal eik ⟨g, before, x :: rest, stop⟩ x rest).before = [] then none
      else some ((visit E goal eik ⟨g, before, x :: rest, stop⟩ x rest).g,
        ⟨(visit E goal eik ⟨g, before, x :: rest, stop⟩ x rest).before, (visit E goal eik ⟨g, before, x :: rest, stop⟩ x rest).after⟩,
        (visit E goal eik ⟨g, before, x :: rest, stop⟩ x rest).stop) := by
  unfold bodyIt visit
  simp only [It.deref, List.head?_cons, Option.bind_eq_bind, Option.bind_some]
  split
  · have key := testNbrIt_eq eik (((g.setScratch (eik g x).2).setValue x (eik g x).1).shape.nbrs x)
      ⟨(g.setScratch (eik g x).2).setValue x (eik g x).1, before, x :: rest, stop⟩
    simp only at key
    rw [key.1]
    generalize hs : (((g.setScratch (eik g x).2).setValue x (eik g x).1).shape.nbrs x).foldl (testNbr eik) ⟨(g.setScratch (eik g x).2).setValue x (eik g x).1, before, x :: rest, stop⟩ = s
      at key
    rw [key.2.1, key.2.2]
    simp only [It.erase, Option.bind_some]
    rcases List.eq_nil_or_concat s.before with hb | ⟨b, y, hb⟩
    · rw [hb]
      cases circ <;> simp [It.dec, It.inc, It.last, It.first]
    · rw [hb]
      simp [It.dec, It.inc]
  · simp [It.inc]

/-- **C105** (FIM on a circular list): every iteration of the loop does what the model of the other theorems (`FIM.next`) does; no iteration is undefined. -/
theorem _root_.FMV.C105_circular_FIM (E : F) (goal : Nat) (eik : Eik F) (s : St F) (h : s.after ≠ []) :
    bodyIt true E goal eik (s.g, ⟨s.before, s.after⟩, s.stop) =
      some ((next E goal eik s).g, ⟨(next E goal eik s).before, (next E goal eik s).after⟩, (next E goal eik s).stop) := by
  obtain ⟨g, before, after, stop⟩ := s
  cases after with
  | nil => exact absurd rfl h
  | cons x rest =>
    rw [bodyIt_eq, if_neg (by simp)]
    rfl

theorem visit_list (E : F) (goal : Nat) (eik : Eik F) (s : St F) (x : Nat) (rest : List Nat) (hx : s.after = x :: rest) :
    (visit E goal eik s x rest).before ++ (visit E goal eik s x rest).after = [] → (visit E goal eik s x rest).before = [] := by
  intro h
  exact (List.append_eq_nil_iff.1 h).1

/-- **C105**, refuted for FIM: every run that ends without having met its goal, from a band that is not empty, reaches an iteration that moves the iterator `x` before the first element of
the list, which the C++ standard leaves undefined: at the latest where the last element is erased. In any arithmetic, on any map. -/
theorem _root_.FMV.C105_refuted_FIM (E : F) (goal : Nat) (eik : Eik F) (g : Grid F) (act0 pts : List Nat) (n : Nat) (s : St F)
    (hs : Steps (Step E goal eik) n (init g act0 pts) s) (hd : Done s) (hstop : s.stop = false) (hne : (init g act0 pts).before ≠ []) :
    ∃ k t, k < n ∧ Steps (Step E goal eik) k (init g act0 pts) t ∧ t.after ≠ [] ∧ bodyIt false E goal eik (t.g, ⟨t.before, t.after⟩, t.stop) = none := by
  have key : ∀ {n a b}, Steps (Step E goal eik) n a b → a.before ++ a.after ≠ [] → b.before ++ b.after = [] →
      ∃ k t, k < n ∧ Steps (Step E goal eik) k a t ∧ t.after ≠ [] ∧ bodyIt false E goal eik (t.g, ⟨t.before, t.after⟩, t.stop) = none := by
    intro n a b h
    induction h with
    | refl => intro h1 h2; exact absurd h2 h1
    | @tail m a b c h1 h2 ih =>
      intro ha hc
      by_cases hb : b.before ++ b.after = []
      · obtain ⟨k, t, q1, q2⟩ := ih ha hb
        exact ⟨k, t, by omega, q2⟩
      · refine ⟨m, b, by omega, h1, ?_⟩
        obtain ⟨_, rfl⟩ := h2
        obtain ⟨g, before, after, stop⟩ := b
        cases after with
        | nil =>
          simp only [next, List.append_nil, List.nil_append] at hb hc
          exact absurd hc hb
        | cons x rest =>
          refine ⟨by simp, ?_⟩
          rw [bodyIt_eq]
          exact if_pos ⟨rfl, (List.append_eq_nil_iff.1 hc).1⟩
  have he : s.before ++ s.after = [] := by
    rcases hd with ⟨h1, h2 | h2⟩
    · rw [h2] at hstop; cases hstop
    · rw [h1, h2]; rfl
  exact key hs (by intro h; exact hne (List.append_eq_nil_iff.1 h).1) he

end FIM

namespace GMM

theorem firstIts_circ (l : List Nat) (x : Nat) : firstIts true (l ++ [x]) = some (⟨l, [x]⟩, ⟨l ++ [x], []⟩) := by
  unfold firstIts It.last It.first
  simp [It.dec, It.last]

theorem Walk.uncons {circ : Bool} {f : Grid F → Nat → Grid F} {q i : It} {g g' : Grid F} (h : Walk circ f q i g g') (hi : i ≠ q) :
    ∃ i' x, i.deref = some x ∧ i.dec circ = some i' ∧ Walk circ f q i' (f g x) g' := by
  cases h with
  | done => exact absurd rfl hi
  | step _ h2 h3 h4 => exact ⟨_, _, h2, h3, h4⟩

/-- **C105** (GMM, first pass, on a circular list): the iterators exist, and the loop treats the elements of `gamma_` in reverse order, and nothing else: what the model of the other theorems
(`GMM.pass1`) says. -/
theorem _root_.FMV.C105_circular_GMM (f : Grid F → Nat → Grid F) (gamma : List Nat) (hne : gamma ≠ []) (g : Grid F) :
    ∃ i q, firstIts true gamma = some (i, q) ∧ ∀ g', Walk true f q i g g' ↔ g' = gamma.reverse.foldl f g := by
  obtain ⟨l, x, rfl⟩ : ∃ l x, gamma = l ++ [x] := by
    rcases List.eq_nil_or_concat gamma with h | ⟨l, x, h⟩
    · exact absurd h hne
    · exact ⟨l, x, by rw [h]; simp⟩
  refine ⟨_, _, firstIts_circ l x, ?_⟩
  have key : ∀ (b : List Nat) (y : Nat) (a : List Nat) (g g' : Grid F), Walk true f ⟨b ++ y :: a, []⟩ ⟨b, y :: a⟩ g g' ↔ g' = (b ++ [y]).reverse.foldl f g := by
    intro b
    induction b using List.reverseRecOn with
    | nil =>
      intro y a g g'
      constructor
      · intro h
        cases h with
        | step h1 h2 h3 h4 =>
          cases h2
          simp only [It.dec, It.last, List.getLast?_nil, if_true, Option.some.injEq] at h3
          subst h3
          cases h4 with
          | done => rfl
          | step k1 => exact absurd rfl k1
      · rintro rfl
        exact .step (by simp) rfl rfl (.done _)
    | append_singleton b z ih =>
      intro y a g g'
      have e : b ++ [z] ++ y :: a = b ++ z :: (y :: a) := by simp
      rw [e]
      have r : (b ++ [z] ++ [y]).reverse.foldl f g = (b ++ [z]).reverse.foldl f (f g y) := by simp
      rw [r, ← ih z (y :: a) (f g y) g']
      constructor
      · intro h
        obtain ⟨i', x, h2, h3, h4⟩ := h.uncons (by simp)
        cases h2
        simp only [It.dec, List.getLast?_append, List.getLast?_singleton, Option.some_or, List.dropLast_concat, Option.some.injEq] at h3
        subst h3
        exact h4
      · intro h
        refine .step ?_ rfl ?_ h
        · simp
        · simp [It.dec]
  intro g'
  exact key l x [] g g'

/-- **C105**, refuted for GMM: by the standard every iteration of its `while` loop is undefined: `q` is moved before the first element of `gamma_`. -/
theorem _root_.FMV.C105_refuted_GMM (gamma : List Nat) : firstIts false gamma = none := by
  unfold firstIts
  cases (It.last gamma).dec false <;> rfl

theorem relax2It_eq (eik : Eik F) (l : List Nat) : ∀ (s : St F), l.foldl (relax2It eik) (s.g, (⟨s.kept, s.rest ++ s.app⟩ : It)) =
    ((l.foldl (relax2 eik) s).g, ⟨(l.foldl (relax2 eik) s).kept, (l.foldl (relax2 eik) s).rest ++ (l.foldl (relax2 eik) s).app⟩) ∧ (l.foldl (relax2 eik) s).rest = s.rest ∧
    (l.foldl (relax2 eik) s).kept = s.kept ∧ (l.foldl (relax2 eik) s).stop = s.stop ∧ (l.foldl (relax2 eik) s).tm = s.tm := by
  induction l with
  | nil => intro s; exact ⟨rfl, rfl, rfl, rfl, rfl⟩
  | cons n l ih =>
    intro s
    have h1 : relax2It eik (s.g, (⟨s.kept, s.rest ++ s.app⟩ : It)) n = ((relax2 eik s n).g, ⟨(relax2 eik s n).kept, (relax2 eik s n).rest ++ (relax2 eik s n).app⟩) ∧
        (relax2 eik s n).rest = s.rest ∧ (relax2 eik s n).kept = s.kept ∧ (relax2 eik s n).stop = s.stop ∧ (relax2 eik s n).tm = s.tm := by
      unfold relax2It relax2
      simp only
      split
      · exact ⟨rfl, rfl, rfl, rfl, rfl⟩
      · split
        · refine ⟨?_, rfl, rfl, rfl, rfl⟩
          simp [It.pushBack]
        · exact ⟨rfl, rfl, rfl, rfl, rfl⟩
    rw [List.foldl_cons, List.foldl_cons, h1.1]
    obtain ⟨a, b, c, d, e⟩ := ih (relax2 eik s n)
    exact ⟨a, by rw [b, h1.2.1], by rw [c, h1.2.2.1], by rw [d, h1.2.2.2.1], by rw [e, h1.2.2.2.2]⟩

/-- **C105** (GMM, second pass): as long as one of the elements counted at the beginning is left, the iterator can be read and moved, also by the letter of the standard, and the iteration
does what the model of the other theorems (`GMM.next`) does. -/
theorem _root_.FMV.C105_second_pass (circ : Bool) (dt : F) (goal : Nat) (eik : Eik F) (s : St F) (h : s.rest ≠ []) :
    visitIt circ goal eik s.tm (s.g, ⟨s.kept, s.rest ++ s.app⟩, s.stop) =
      some ((next dt goal eik s).g, ⟨(next dt goal eik s).kept, (next dt goal eik s).rest ++ (next dt goal eik s).app⟩, (next dt goal eik s).stop) := by
  obtain ⟨g, kept, rest, app, tm, stop⟩ := s
  cases rest with
  | nil => exact absurd rfl h
  | cons x rest =>
    unfold visitIt next visit
    simp only [It.deref, List.cons_append, List.head?_cons, Option.bind_eq_bind, Option.bind_some]
    split
    · have key := relax2It_eq eik (g.shape.nbrs x) ⟨g, kept, x :: rest, app, tm, stop⟩
      simp only [List.cons_append] at key
      rw [key.1]
      generalize hs : (g.shape.nbrs x).foldl (relax2 eik) ⟨g, kept, x :: rest, app, tm, stop⟩ = s at key
      rw [key.2.1]
      simp [It.erase, key.2.2.2.1]
    · simp [It.inc]

end GMM

/-- non-vacuity: in every rounding to doubles, on a 2 x 2 map with one obstacle, the run of FIM from cell 0 is a run of `C105_refuted_FIM` -/
example (R : Rounding) : ∃ (g : Grid (F64 R)) (E : F64 R) (s : FIM.St (F64 R)), Steps (FIM.Step E noGoal eikS) 6 (FIM.init g [] [0]) s ∧ FIM.Done s ∧ s.stop = false ∧
    (FIM.init g [] [0]).before ≠ [] := by
  obtain ⟨s, h1, h2, h3⟩ := FIM.chain_ends (FIM.chain64 R Arith.zero (e := 0) rfl (le_refl _)) noGoal (by decide)
  have hin : Input [2,2] (FIM.crossMap (F := F64 R) Arith.one Arith.zero Arith.one Arith.one) [0] := ⟨⟨by decide, by decide, by decide⟩, rfl, by decide⟩
  have hst := FIM.stop_false' hin (goal := noGoal) (by decide) h1
  refine ⟨_, _, s, h1, h2, hst, ?_⟩
  intro hb
  have hd0 : FIM.Done (FIM.init (FIM.crossMap (F := F64 R) Arith.one Arith.zero Arith.one Arith.one) [] [0]) := ⟨rfl, .inr hb⟩
  obtain ⟨d, hd, _⟩ := Steps.uncons h1
  exact hd.1 hd0
end FMV
