import Verif.Model.Heap
import Mathlib.Data.List.Perm.Basic
import Mathlib.Data.List.Nodup
import Mathlib.Data.List.GetD
import Mathlib.Order.Basic
/-! Correctness of the sift operations of a binary heap stored in a list. -/
namespace FMV
namespace Heap
variable {α : Type} {d : α} {low : α → α → Bool}

theorem at'_set (q : List α) (i k : Nat) (a : α) (hi : i < q.length) : at' d (q.set i a) k = if k = i then a else at' d q k := by
  unfold at'
  by_cases h : k = i
  · subst h; simp [List.getD_eq_getElem?_getD, hi]
  · rw [if_neg h]; simp [List.getD_eq_getElem?_getD, List.getElem?_set_ne (Ne.symm h)]

theorem length_swap (q : List α) (i j : Nat) : (swap d q i j).length = q.length := by unfold swap; simp

theorem at'_swap (q : List α) (i j k : Nat) (hi : i < q.length) (hj : j < q.length) :
    at' d (swap d q i j) k = if k = j then at' d q i else if k = i then at' d q j else at' d q k := by
  unfold swap
  rw [at'_set _ _ _ _ (by simpa using hj), at'_set _ _ _ _ hi]

theorem at'_mem (q : List α) (i : Nat) (hi : i < q.length) : at' d q i ∈ q := by
  unfold at'; rw [List.getD_eq_getElem _ _ hi]; exact List.getElem_mem hi

theorem mem_at' {q : List α} {a : α} (h : a ∈ q) : ∃ i, i < q.length ∧ at' d q i = a := by
  obtain ⟨i, hi, e⟩ := List.getElem_of_mem h
  exact ⟨i, hi, by unfold at'; rw [List.getD_eq_getElem _ _ hi]; exact e⟩

theorem set_perm (q : List α) (i : Nat) (a : α) (hi : i < q.length) : (at' d q i :: q.set i a).Perm (a :: q) := by
  induction q generalizing i with
  | nil => simp at hi
  | cons b q ih =>
    cases i with
    | zero => simp only [at', List.getD_cons_zero, List.set_cons_zero]; exact List.Perm.swap _ _ _
    | succ i =>
      simp only [at', List.getD_cons_succ, List.set_cons_succ]
      have := ih i (by simpa using hi)
      unfold at' at this
      exact ((List.Perm.swap _ _ _).trans (this.cons b)).trans (List.Perm.swap _ _ _)

theorem swap_perm (q : List α) (i j : Nat) (hi : i < q.length) (hj : j < q.length) : (swap d q i j).Perm q := by
  unfold swap
  have h1 := set_perm (d := d) q i (at' d q j) hi
  have h2 := set_perm (d := d) (q.set i (at' d q j)) j (at' d q i) (by simpa using hj)
  have e : at' d (q.set i (at' d q j)) j = at' d q j := by
    rw [at'_set _ _ _ _ hi]; split
    · rfl
    · rfl
  rw [e] at h2
  exact List.Perm.cons_inv (h2.trans h1)

/-- `low` behaves like a strict weak order on the elements satisfying `P` -/
structure Weak (low : α → α → Bool) (P : α → Prop) : Prop where
  asymm : ∀ a b, P a → P b → low a b = true → low b a = false
  trans : ∀ a b c, P a → P b → P c → low a b = false → low b c = false → low a c = false

theorem Weak.irrefl {P : α → Prop} (W : Weak low P) {a : α} (ha : P a) : low a a = false := by
  cases h : low a a with
  | false => rfl
  | true => exact absurd (W.asymm a a ha ha h) (by rw [h]; simp)

/-- the heap order: no element has lower priority than one of its children -/
def Ordered (d : α) (low : α → α → Bool) (q : List α) : Prop :=
  ∀ k, 0 < k → k < q.length → low (at' d q ((k - 1) / 2)) (at' d q k) = false

/-- the front has the highest priority -/
theorem Ordered.top {P : α → Prop} (W : Weak low P) {q : List α} (hP : ∀ a ∈ q, P a) (H : Ordered d low q) :
    ∀ k, k < q.length → low (at' d q 0) (at' d q k) = false := by
  intro k
  induction k using Nat.strongRecOn with
  | _ k ih =>
    intro hk
    rcases Nat.eq_zero_or_pos k with rfl | h0
    · exact W.irrefl (hP _ (at'_mem _ _ hk))
    · have hp : (k - 1) / 2 < k := by omega
      exact W.trans _ _ _ (hP _ (at'_mem _ _ (by omega))) (hP _ (at'_mem _ _ (by omega))) (hP _ (at'_mem _ _ hk))
        (ih _ hp (by omega)) (H k h0 hk)

/-- the order holds except between `i` and its parent -/
structure UpInv (d : α) (low : α → α → Bool) (q : List α) (i : Nat) : Prop where
  rest : ∀ k, 0 < k → k < q.length → k ≠ i → low (at' d q ((k - 1) / 2)) (at' d q k) = false
  skip : 0 < i → ∀ k, 0 < k → k < q.length → (k - 1) / 2 = i → low (at' d q ((i - 1) / 2)) (at' d q k) = false

theorem siftUp_length (f i : Nat) (q : List α) : (siftUp d low f i q).length = q.length := by
  induction f generalizing i q with
  | zero => rfl
  | succ f ih =>
    unfold siftUp
    split
    · rfl
    · split
      · rw [ih, length_swap]
      · rfl

theorem siftUp_perm (f i : Nat) (q : List α) (hi : i < q.length) : (siftUp d low f i q).Perm q := by
  induction f generalizing i q with
  | zero => exact List.Perm.refl _
  | succ f ih =>
    unfold siftUp
    split
    · exact List.Perm.refl _
    · split
      · refine (ih _ _ ?_).trans (swap_perm _ _ _ (by omega) hi)
        rw [length_swap]; omega
      · exact List.Perm.refl _

theorem siftUp_ordered {P : α → Prop} (W : Weak low P) (f i : Nat) (q : List α) (hi : i < q.length) (hf : i ≤ f) (hP : ∀ a ∈ q, P a)
    (U : UpInv d low q i) : Ordered d low (siftUp d low f i q) := by
  induction f generalizing i q with
  | zero =>
    have : i = 0 := by omega
    subst this
    intro k h0 hk
    exact U.rest k h0 hk (by omega)
  | succ f ih =>
    unfold siftUp
    split
    · next h => subst h; intro k h0 hk; exact U.rest k h0 hk (by omega)
    · next h =>
      have hp : (i - 1) / 2 < q.length := by omega
      have PA : ∀ k, k < q.length → P (at' d q k) := fun k hk => hP _ (at'_mem _ _ hk)
      split
      · next hl =>
        have hpi : (i - 1) / 2 ≠ i := by omega
        have has := W.asymm _ _ (PA _ hp) (PA _ hi) hl
        refine ih _ _ (by rw [length_swap]; exact hp) (by omega) (fun a ha => hP a ((swap_perm _ _ _ hp hi).mem_iff.1 ha)) ⟨?_, ?_⟩
        · intro k h0 hk hkp
          rw [length_swap] at hk
          rw [at'_swap _ _ _ _ hp hi, at'_swap _ _ _ _ hp hi]
          by_cases hki : k = i
          · subst hki
            rw [if_neg hpi, if_pos rfl, if_pos rfl]
            exact has
          · rw [if_neg hki, if_neg hkp]
            by_cases h1 : (k - 1) / 2 = i
            · rw [if_pos h1]
              exact U.skip (by omega) k h0 hk h1
            · rw [if_neg h1]
              by_cases h2 : (k - 1) / 2 = (i - 1) / 2
              · rw [if_pos h2]
                have := U.rest k h0 hk hki
                rw [h2] at this
                exact W.trans _ _ _ (PA _ hi) (PA _ hp) (PA _ hk) has this
              · rw [if_neg h2]
                exact U.rest k h0 hk hki
        · intro hp0 k h0 hk hkp
          rw [length_swap] at hk
          have hpp : ((i - 1) / 2 - 1) / 2 < q.length := by omega
          rw [at'_swap _ _ _ _ hp hi, at'_swap _ _ _ _ hp hi, if_neg (by omega), if_neg (by omega)]
          have h1 := U.rest ((i - 1) / 2) hp0 hp hpi
          by_cases hki : k = i
          · subst hki; rw [if_pos rfl]; exact h1
          · rw [if_neg hki, if_neg (by omega)]
            have h2 := U.rest k h0 hk hki
            rw [hkp] at h2
            exact W.trans _ _ _ (PA _ hpp) (PA _ hp) (PA _ hk) h1 h2
      · next hl =>
        intro k h0 hk
        by_cases hki : k = i
        · subst hki; simpa using hl
        · exact U.rest k h0 hk hki

/-- the order holds except between `i` and its children -/
structure DownInv (d : α) (low : α → α → Bool) (q : List α) (i : Nat) : Prop where
  rest : ∀ k, 0 < k → k < q.length → (k - 1) / 2 ≠ i → low (at' d q ((k - 1) / 2)) (at' d q k) = false
  skip : 0 < i → ∀ k, 0 < k → k < q.length → (k - 1) / 2 = i → low (at' d q ((i - 1) / 2)) (at' d q k) = false

theorem topChild_lt {q : List α} {i : Nat} (h : 2 * i + 1 < q.length) : topChild d low q i < q.length := by
  unfold topChild; split
  · next h => exact h.1
  · exact h

theorem topChild_or (q : List α) (i : Nat) : topChild d low q i = 2 * i + 1 ∨ topChild d low q i = 2 * i + 2 := by
  unfold topChild; split
  · exact .inr rfl
  · exact .inl rfl

theorem siftDown_length (f i : Nat) (q : List α) : (siftDown d low f i q).length = q.length := by
  induction f generalizing i q with
  | zero => rfl
  | succ f ih =>
    unfold siftDown
    split
    · dsimp only
      split
      · rfl
      · rw [ih, length_swap]
    · rfl

theorem siftDown_perm (f i : Nat) (q : List α) : (siftDown d low f i q).Perm q := by
  induction f generalizing i q with
  | zero => exact List.Perm.refl _
  | succ f ih =>
    unfold siftDown
    split
    · next h =>
      dsimp only
      split
      · exact List.Perm.refl _
      · exact (ih _ _).trans (swap_perm _ _ _ (topChild_lt h) (by omega))
    · exact List.Perm.refl _

theorem topChild_best {P : α → Prop} (W : Weak low P) {q : List α} {i : Nat} (hP : ∀ a ∈ q, P a) {k : Nat} (h0 : 0 < k) (hk : k < q.length)
    (hki : (k - 1) / 2 = i) : low (at' d q (topChild d low q i)) (at' d q k) = false := by
  have PA : ∀ k, k < q.length → P (at' d q k) := fun k hk => hP _ (at'_mem _ _ hk)
  have hc : k = 2 * i + 1 ∨ k = 2 * i + 2 := by omega
  unfold topChild
  split
  · next h =>
    rcases hc with rfl | rfl
    · exact W.asymm _ _ (PA _ hk) (PA _ h.1) h.2
    · exact W.irrefl (PA _ hk)
  · next h =>
    rcases hc with rfl | rfl
    · exact W.irrefl (PA _ hk)
    · cases hl : low (at' d q (2 * i + 1)) (at' d q (2 * i + 2)) with
      | false => rfl
      | true => exact absurd ⟨hk, hl⟩ h

theorem siftDown_ordered {P : α → Prop} (W : Weak low P) (f i : Nat) (q : List α) (hf : q.length ≤ f + i) (hP : ∀ a ∈ q, P a)
    (U : DownInv d low q i) : Ordered d low (siftDown d low f i q) := by
  induction f generalizing i q with
  | zero =>
    intro k h0 hk
    exact U.rest k h0 hk (by have : k < q.length := hk; omega)
  | succ f ih =>
    unfold siftDown
    have PA : ∀ k, k < q.length → P (at' d q k) := fun k hk => hP _ (at'_mem _ _ hk)
    split
    · next hlen =>
      dsimp only
      have hm := topChild_lt (d := d) (low := low) hlen
      have hmo := topChild_or (d := d) (low := low) q i
      have best := fun {k} h0 hk hki => topChild_best (d := d) W hP (i := i) (k := k) h0 hk hki
      generalize hmm : topChild d low q i = m at *
      have hi : i < q.length := by omega
      split
      · next hl =>
        intro k h0 hk
        by_cases hki : (k - 1) / 2 = i
        · rw [hki]
          exact W.trans _ _ _ (PA _ hi) (PA _ hm) (PA _ hk) (W.asymm _ _ (PA _ hm) (PA _ hi) hl) (best h0 hk hki)
        · exact U.rest k h0 hk hki
      · next hl =>
        have hl : low (at' d q m) (at' d q i) = false := by simpa using hl
        refine ih m _ (by rw [length_swap]; omega) (fun a ha => hP a ((swap_perm _ _ _ hm hi).mem_iff.1 ha)) ⟨?_, ?_⟩
        · intro k h0 hk hkm
          rw [length_swap] at hk
          rw [at'_swap _ _ _ _ hm hi, at'_swap _ _ _ _ hm hi]
          by_cases h1 : (k - 1) / 2 = i
          · rw [if_pos h1, if_neg (by omega : k ≠ i)]
            by_cases h2 : k = m
            · rw [if_pos h2]; exact hl
            · rw [if_neg h2]; exact best h0 hk h1
          · rw [if_neg h1, if_neg hkm]
            by_cases h2 : k = i
            · subst h2
              rw [if_pos rfl]
              exact U.skip h0 m (by omega) hm (by omega)
            · rw [if_neg h2, if_neg (by omega)]
              exact U.rest k h0 hk h1
        · intro _ k h0 hk hkm
          rw [length_swap] at hk
          have e : (m - 1) / 2 = i := by omega
          rw [at'_swap _ _ _ _ hm hi, at'_swap _ _ _ _ hm hi, if_pos e, if_neg (by omega), if_neg (by omega)]
          have := U.rest k h0 hk (by omega)
          rwa [hkm] at this
    · next hlen =>
      intro k h0 hk
      exact U.rest k h0 hk (by omega)

/-! push and pop -/

theorem at'_append (q : List α) (v : α) (k : Nat) (hk : k < q.length) : at' d (q ++ [v]) k = at' d q k := by
  unfold at'; simp [List.getD_eq_getElem?_getD, List.getElem?_append_left hk]

theorem pushQ_perm (q : List α) (v : α) : (pushQ d low q v).Perm (v :: q) := by
  unfold pushQ
  exact (siftUp_perm _ _ _ (by simp)).trans (List.perm_append_singleton v q)

theorem pushQ_ordered {P : α → Prop} (W : Weak low P) (q : List α) (v : α) (hP : ∀ a ∈ q, P a) (hv : P v) (H : Ordered d low q) :
    Ordered d low (pushQ d low q v) := by
  unfold pushQ
  refine siftUp_ordered W _ _ _ (by simp) (Nat.le_refl _) ?_ ⟨?_, ?_⟩
  · intro a ha
    rcases List.mem_append.1 ha with h | h
    · exact hP a h
    · rw [List.mem_singleton.1 h]; exact hv
  · intro k h0 hk hki
    have hk' : k < q.length := by simp at hk; omega
    rw [at'_append _ _ _ hk', at'_append _ _ _ (by omega)]
    exact H k h0 hk'
  · intro h0 k hk0 hk hkp
    simp at hk; omega

theorem popQ_perm (q : List α) (hne : q ≠ []) : q.Perm (at' d q 0 :: popQ d low q) := by
  have hl : 0 < q.length := List.length_pos_iff.2 hne
  unfold popQ
  dsimp only
  set w := swap d q 0 (q.length - 1) with hw
  have hwl : w.length = q.length := length_swap _ _ _
  have hwp : w.Perm q := swap_perm _ _ _ hl (by omega)
  have hlast : w = w.dropLast ++ [at' d q 0] := by
    have hne' : w ≠ [] := by intro h; rw [h] at hwl; simp at hwl; omega
    have h1 := (List.dropLast_append_getLast hne').symm
    have h2 : w.getLast hne' = at' d q 0 := by
      rw [List.getLast_eq_getElem]
      have : at' d w (w.length - 1) = at' d q 0 := by
        rw [hw, at'_swap _ _ _ _ hl (by omega), length_swap, if_pos rfl]
      rw [← this]; unfold at'; rw [List.getD_eq_getElem]
    rw [h2] at h1; exact h1
  refine hwp.symm.trans ?_
  conv_lhs => rw [hlast]
  refine (List.perm_append_singleton _ _).trans (List.Perm.cons _ ?_)
  exact (siftDown_perm _ _ _).symm

theorem popQ_ordered {P : α → Prop} (W : Weak low P) (q : List α) (hP : ∀ a ∈ q, P a) (H : Ordered d low q) :
    Ordered d low (popQ d low q) := by
  by_cases hne : q = []
  · subst hne; intro k h0 hk; simp [popQ, swap, siftDown] at hk
  have hl : 0 < q.length := List.length_pos_iff.2 hne
  have hperm := popQ_perm (d := d) (low := low) q hne
  unfold popQ
  dsimp only
  have hat : ∀ k, 0 < k → k < q.length - 1 → at' d (swap d q 0 (q.length - 1)).dropLast k = at' d q k := by
    intro k h0 hk
    have : at' d (swap d q 0 (q.length - 1)).dropLast k = at' d (swap d q 0 (q.length - 1)) k := by
      unfold at'
      rw [List.getD_eq_getElem?_getD, List.getD_eq_getElem?_getD, List.getElem?_dropLast, if_pos (by rw [length_swap]; exact hk)]
    rw [this, at'_swap _ _ _ _ hl (by omega), if_neg (by omega), if_neg (by omega)]
  refine siftDown_ordered W _ _ _ (by omega) ?_ ⟨?_, ?_⟩
  · intro a ha
    exact hP a ((swap_perm _ _ _ hl (by omega)).mem_iff.1 (List.dropLast_subset _ ha))
  · intro k h0 hk hk1
    have hk' : k < q.length - 1 := by simpa [length_swap] using hk
    rw [hat k h0 hk', hat _ (by omega) (by omega)]
    exact H k h0 (by omega)
  · intro h; omega

end Heap
end FMV
