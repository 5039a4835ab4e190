import Verif.Lemmas.FMMExact
import Verif.Props.Eikonal
import Mathlib.Data.DFinsupp.WellFounded
import Mathlib.Data.Nat.Lattice
import Mathlib.Algebra.Order.Floor.Ring
/-! Termination arguments: arrival times can only be improved finitely often. -/
set_option linter.unusedSectionVars false
set_option linter.unusedVariables false
namespace FMV
open Spec Shape XR FMM

theorem Steps.head {S : Type} {r : S → S → Prop} {n s t u} (h : r s t) (h' : Steps r n t u) : Steps r (n+1) s u := by
  induction h' with
  | refl => exact .tail (.refl _) h
  | tail _ h2 ih => exact .tail (ih h) h2

theorem Steps.append {S : Type} {r : S → S → Prop} {n m s t u} (h : Steps r n s t) (h' : Steps r m t u) : Steps r (n+m) s u := by
  induction h' with
  | refl => exact h
  | tail _ h2 ih => exact .tail (ih h) h2

/-- a step relation that decreases a well-founded measure and is not stuck reaches a final state -/
theorem exists_done_wf {S α : Type} {step : S → S → Prop} {done I : S → Prop} {r : α → α → Prop} (wf : WellFounded r) (μ : S → α)
    (hI : ∀ s t, I s → step s t → I t) (hdec : ∀ s t, I s → step s t → r (μ t) (μ s))
    (hp : ∀ s, I s → ¬ done s → ∃ t, step s t) : ∀ s, I s → ∃ n t, Steps step n s t ∧ done t := by
  intro s
  generalize hm : μ s = m
  induction m using wf.induction generalizing s with
  | _ m ih =>
    intro hs
    by_cases hd : done s
    · exact ⟨0, s, .refl _, hd⟩
    · obtain ⟨t, ht⟩ := hp s hs hd
      obtain ⟨n, u, h1, h2⟩ := ih (μ t) (by rw [← hm]; exact hdec s t hs ht) t rfl (hI s t hs ht)
      exact ⟨n+1, u, Steps.head ht h1, h2⟩

/-- ... and has no infinite run -/
theorem no_infinite_wf {S α : Type} {step : S → S → Prop} {I : S → Prop} {r : α → α → Prop} (wf : WellFounded r) (μ : S → α)
    (hI : ∀ s t, I s → step s t → I t) (hdec : ∀ s t, I s → step s t → r (μ t) (μ s)) :
    ¬ ∃ f : Nat → S, I (f 0) ∧ ∀ n, step (f n) (f (n+1)) := by
  rintro ⟨f, h0, hf⟩
  have hall : ∀ n, I (f n) := by
    intro n; induction n with
    | zero => exact h0
    | succ n ih => exact hI _ _ ih (hf n)
  have : ∀ m n, μ (f n) = m → False := by
    intro m
    induction m using wf.induction with
    | _ m ih =>
      intro n hn
      exact ih (μ (f (n+1))) (by rw [← hn]; exact hdec _ _ (hall n) (hf n)) (n+1) rfl
  exact this _ 0 rfl

/-- A ranking of times in which every accepted improvement decreases the rank. -/
structure Ranked (F : Type) [Arith F] (good : F → Prop) where
  rk : F → WithTop ℕ
  lt : ∀ a b, good a → good b → Arith.better a b = true → rk a < rk b

open Classical in
/-- In a finite arithmetic (such as 64-bit doubles) there is such a ranking. -/
noncomputable def Ranked.ofFinite {F : Type} [Arith F] [Fintype F] (L : MarginLaws F) : Ranked F (fun _ => True) where
  rk a := ((Finset.univ.filter (fun b => Arith.better b a = true)).card : ℕ)
  lt a b _ _ h := by
    have O := C46_strict_order L
    have : (Finset.univ.filter (fun c => Arith.better c a = true)).card <
        (Finset.univ.filter (fun c => Arith.better c b = true)).card := by
      apply Finset.card_lt_card
      rw [Finset.ssubset_iff_of_subset]
      · refine ⟨a, by simp [h], by simp [O.1 a]⟩
      · intro c hc
        rw [Finset.mem_filter] at *
        exact ⟨hc.1, O.2.2 c a b hc.2 h⟩
    exact_mod_cast this

open Classical in
/-- In exact arithmetic there is one on non-negative times. -/
noncomputable def Ranked.exact : Ranked XR GoodT where
  rk a := match a with | .fin r => ((⌊r / eps⌋.toNat : ℕ) : WithTop ℕ) | _ => ⊤
  lt a b ha hb h := by
    have he := eps_pos
    rcases ha with rfl | ⟨r, hr, rfl⟩
    · rcases hb with rfl | ⟨r', hr', rfl⟩ <;> simp [Arith.better, Arith.lt, XR.lt, Arith.add, XR.add, Arith.margin] at h
    · rcases hb with rfl | ⟨r', hr', rfl⟩
      · exact WithTop.coe_lt_top _
      · simp only [Arith.better, Arith.lt, XR.lt, Arith.add, XR.add, Arith.margin, decide_eq_true_eq] at h
        have h1 : r / eps + 1 < r' / eps := by
          rw [div_add_one he.ne', div_lt_div_iff_of_pos_right he]; exact h
        have h2 : ⌊r / eps⌋ + 1 ≤ ⌊r' / eps⌋ := by
          rw [Int.le_floor]; push_cast
          have := Int.floor_le (r / eps)
          linarith
        have h3 : 0 ≤ ⌊r / eps⌋ := Int.floor_nonneg.2 (div_nonneg hr he.le)
        have : ⌊r / eps⌋.toNat < ⌊r' / eps⌋.toNat := by omega
        show ((⌊r / eps⌋.toNat : ℕ) : WithTop ℕ) < ((⌊r' / eps⌋.toNat : ℕ) : WithTop ℕ)
        exact_mod_cast this

/-- the ranks of all arrival times -/
def rkVec {F : Type} [Arith F] {good : F → Prop} (R : Ranked F good) (N : Nat) (g : Grid F) : Fin N → WithTop ℕ :=
  fun i => R.rk (g.value i)

theorem rkVec_lt {F : Type} [Arith F] {good : F → Prop} (R : Ranked F good) {N : Nat} {g g' : Grid F} {j : Nat} (hj : j < N)
    (h1 : ∀ k, k < N → k ≠ j → g'.value k = g.value k) (h2 : R.rk (g'.value j) < R.rk (g.value j)) :
    rkVec R N g' < rkVec R N g := by
  rw [Pi.lt_def]
  refine ⟨?_, ⟨j, hj⟩, h2⟩
  intro k
  by_cases hk : k.1 = j
  · unfold rkVec; rw [hk]; exact h2.le
  · unfold rkVec; rw [h1 k.1 k.2 hk]

theorem rkVec_wf (N : Nat) : WellFounded (fun a b : Fin N → WithTop ℕ => a < b) := wellFounded_lt

end FMV
