import Verif.Model.UQDefined
/-! A run of UFMM that performs no undefined conversion is the same whatever such a conversion would yield. -/
set_option linter.unusedSectionVars false
namespace FMV
open Arith FMM
variable {F : Type} [Arith F]

/-- the same queue in a world where undefined conversions yield `b` -/
def UQ.wu (q : UQ F) (b : F → Nat) : UQ F := { q with ub := b }

namespace UQ
theorem wu_bucketOf {q : UQ F} {t : F} (b : F → Nat) (h : q.convDefined t) : (q.wu b).bucketOf t = q.bucketOf t := by
  unfold UQ.convDefined at h
  obtain ⟨k, hk⟩ := Option.isSome_iff_exists.1 h
  unfold UQ.bucketOf UQ.rawIdx
  simp only [wu, hk, Option.getD_some]

theorem wu_advance (b : F → Nat) : ∀ (k : Nat) (q : UQ F), (q.wu b).advance k = (q.advance k).wu b
  | 0, q => rfl
  | k+1, q => by
    simp only [UQ.advance]
    have : (q.wu b).tab (q.wu b).i0 = q.tab q.i0 := rfl
    rw [this]
    split
    · exact wu_advance b k q.shift
    · rfl

theorem wu_settle (b : F → Nat) (q : UQ F) : (q.wu b).settle = (q.settle).wu b := wu_advance b q.size q

theorem wu_top (b : F → Nat) (q : UQ F) : (q.wu b).top = (q.top.1.wu b, q.top.2) := by
  unfold UQ.top; rw [wu_settle]; rfl

theorem wu_pop (b : F → Nat) (q : UQ F) : (q.wu b).pop = (q.pop).wu b := by
  unfold UQ.pop
  have : (q.wu b).nb = q.nb := rfl
  rw [this, wu_settle]
  split <;> rfl

theorem wu_push {q : UQ F} (b : F → Nat) (e : Nat) {t : F} (h : q.nb = 0 ∨ q.convDefined t) : (q.wu b).push e t = ((q.push e t).1.wu b, (q.push e t).2) := by
  unfold UQ.push
  have : (q.wu b).nb = q.nb := rfl
  rw [this]
  by_cases h0 : q.nb = 0
  · rw [if_pos h0, if_pos h0]; rfl
  · rw [if_neg h0, if_neg h0, wu_bucketOf b (h.resolve_left h0)]; rfl

theorem wu_increase {q : UQ F} (b : F → Nat) (e k : Nat) {t : F} (h : q.convDefined t) :
    (q.wu b).increase e k t = ((q.increase e k t).1.wu b, (q.increase e k t).2) := by
  unfold UQ.increase
  dsimp only
  rw [wu_bucketOf b h]
  split <;> rfl
end UQ

namespace UFMM
/-- the same state in a world where undefined conversions yield `b` -/
def St.wu (s : St F) (b : F → Nat) : St F := { s with q := s.q.wu b }

theorem wu_push {s : St F} (b : F → Nat) {i : Nat} (h : pushDefined s i) : push (s.wu b) i = (push s i).wu b := by
  unfold push
  have : (s.wu b).q.push i ((s.wu b).g.value i) = _ := UQ.wu_push b i h
  rw [this]; rfl

theorem wu_increase {s : St F} (b : F → Nat) {i : Nat} (h : increaseDefined s i) : increase (s.wu b) i = (increase s i).wu b := by
  unfold increase
  have : (s.wu b).q.increase i ((s.wu b).g.cells i).bucket ((s.wu b).g.value i) = _ := UQ.wu_increase b i (s.g.cells i).bucket h
  rw [this]; rfl

theorem wu_relax {eik : Eik F} {s : St F} (b : F → Nat) {j : Nat} (h : relaxDefined eik s j) : relax eik (s.wu b) j = (relax eik s j).wu b := by
  unfold relaxDefined at h
  unfold relax
  have e : (s.wu b).g = s.g := rfl
  rw [e]
  dsimp only at h ⊢
  split
  · rfl
  · next h1 =>
    rw [if_neg h1] at h
    split
    · next h2 =>
      rw [if_pos h2] at h
      split
      · next h3 =>
        rw [if_pos h3] at h
        exact wu_increase (s := { s with g := (s.g.setScratch (eik s.g j).2).setValue j (eik s.g j).1 }) b h
      · rfl
    · next h2 =>
      rw [if_neg h2] at h
      exact wu_push (s := { s with g := ((s.g.setScratch (eik s.g j).2).setState j .narrow).setValue j (eik s.g j).1 }) b h

theorem wu_fold {P : St F → Nat → Prop} {f : St F → Nat → St F} (b : F → Nat) (hf : ∀ s j, P s j → f (s.wu b) j = (f s j).wu b) :
    ∀ (l : List Nat) (s : St F), allDefined P f s l → l.foldl f (s.wu b) = (l.foldl f s).wu b
  | [], _, _ => rfl
  | j :: l, s, h => by
    simp only [List.foldl_cons]
    rw [hf s j h.1]
    exact wu_fold b hf l _ h.2

theorem wu_init (b : F → Nat) {g : Grid F} {q : UQ F} {pts : List Nat} (h : initDefined g q pts) : init g (q.wu b) pts = (init g q pts).wu b :=
  wu_fold b (fun s i hp => wu_push (s := { s with g := s.g.setValue i zero }) b hp) pts _ h

theorem wu_step {goal : Nat} {eik : Eik F} {s s' : St F} (b : F → Nat) (h : DStep goal eik s s') : Step goal eik (s.wu b) (s'.wu b) := by
  obtain ⟨⟨hd, x, hx, rfl⟩, hall⟩ := h
  refine ⟨hd, x, ?_, ?_⟩
  · show (s.q.wu b).top.2 = _
    rw [UQ.wu_top]; exact hx
  · have e1 : ({ s.wu b with q := (s.wu b).q.top.1 } : St F) = ({ s with q := s.q.top.1 } : St F).wu b := by
      show ({ s with q := (s.q.wu b).top.1 } : St F) = _
      rw [UQ.wu_top]; rfl
    rw [e1]
    unfold expand
    dsimp only
    have e2 : (s.g.shape.nbrs x).foldl (relax eik) (({ s with q := s.q.top.1, g := s.g.setState x .frozen } : St F).wu b) = _ :=
      wu_fold b (fun s j hp => wu_relax b hp) _ _ (hall x hx)
    have e3 : List.foldl (relax eik) ({ ({ s with q := s.q.top.1 } : St F).wu b with g := (({ s with q := s.q.top.1 } : St F).wu b).g.setState x .frozen })
        ((({ s with q := s.q.top.1 } : St F).wu b).g.shape.nbrs x) = _ := e2
    rw [e3]
    show St.mk _ _ _ = St.mk _ _ _
    congr 1
    exact (UQ.wu_pop b _).symm

/-- A run without undefined conversion is, step by step, a run in every world. -/
theorem wu_run {goal : Nat} {eik : Eik F} (b : F → Nat) {m : Nat} {s s' : St F} (h : Steps (DStep goal eik) m s s') :
    Steps (Step goal eik) m (s.wu b) (s'.wu b) := by
  induction h with
  | refl => exact .refl _
  | tail _ hst ih => exact .tail ih (wu_step b hst)

end UFMM
end FMV
