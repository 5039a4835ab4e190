import Verif.Model.DDQM
import Verif.Lemmas.Lock
import Verif.Lemmas.FSMBasic
/-!
# DDQM

C10, C11, C18, C20, C25, C27 and the accuracy used for C28.  `th` and `ths` are arbitrary initial values of the threshold and its step, so every
statement is independent of the dynamic threshold.
-/
set_option linter.unusedSectionVars false
set_option linter.unusedVariables false
namespace FMV
open Spec Shape XR FMM
variable {F : Type} [Arith F]
namespace DDQM

/-- `x` is in one of the queues -/
def Queued (s : St F) (x : Nat) : Prop := x ∈ s.q0 ∨ x ∈ s.q1

def qlen (s : St F) : Nat := s.q0.length + s.q1.length

@[simp] theorem setLow_g (s : St F) (q) : (s.setLow q).g = s.g := by unfold St.setLow; split <;> rfl
@[simp] theorem setLow_stop (s : St F) (q) : (s.setLow q).stop = s.stop := by unfold St.setLow; split <;> rfl
@[simp] theorem setLow_inner (s : St F) (q) : (s.setLow q).inner = s.inner := by unfold St.setLow; split <;> rfl
@[simp] theorem setHigh_g (s : St F) (q) : (s.setHigh q).g = s.g := by unfold St.setHigh; split <;> rfl
@[simp] theorem setHigh_stop (s : St F) (q) : (s.setHigh q).stop = s.stop := by unfold St.setHigh; split <;> rfl
@[simp] theorem setHigh_inner (s : St F) (q) : (s.setHigh q).inner = s.inner := by unfold St.setHigh; split <;> rfl

theorem queued_pop {s : St F} {idx : Nat} {rest : List Nat} (h : s.low = idx :: rest) (x : Nat) :
    Queued s x ↔ x = idx ∨ Queued (s.setLow rest) x := by
  unfold St.low at h
  unfold Queued St.setLow
  split <;> simp_all <;> tauto

theorem qlen_pop {s : St F} {idx : Nat} {rest : List Nat} (h : s.low = idx :: rest) : qlen s = qlen (s.setLow rest) + 1 := by
  unfold St.low at h
  unfold qlen St.setLow
  split <;> simp_all <;> omega

theorem queued_pushLow (s : St F) (n x : Nat) : Queued (s.setLow (s.low ++ [n])) x ↔ Queued s x ∨ x = n := by
  unfold Queued St.setLow St.low
  split <;> simp <;> tauto
theorem queued_pushHigh (s : St F) (n x : Nat) : Queued (s.setHigh (s.high ++ [n])) x ↔ Queued s x ∨ x = n := by
  unfold Queued St.setHigh St.high
  split <;> simp <;> tauto

/-- unlocking one neighbour -/
theorem openNbr_spec (t : F) (s : St F) (n : Nat) :
    SameMap s.g (openNbr t s n).g ∧ (∀ k, (openNbr t s n).g.value k = s.g.value k) ∧ (openNbr t s n).stop = s.stop ∧
    (openNbr t s n).inner = s.inner ∧
    (∀ k, (openNbr t s n).g.state k = if k = n ∧ s.g.state k = .frozen ∧ Arith.better t (s.g.value k) = true then .opn else s.g.state k) ∧
    (∀ x, Queued (openNbr t s n) x ↔ Queued s x ∨ (x = n ∧ s.g.state x = .frozen ∧ Arith.better t (s.g.value x) = true)) := by
  unfold openNbr
  by_cases h1 : s.g.state n = .frozen
  · cases h2 : Arith.better t (s.g.value n) with
    | true =>
      simp only [h1, if_true, h2]
      split
      · refine ⟨?_, ?_, ?_, ?_, ?_, ?_⟩
        · simp only [setLow_g]; exact sameMap_setState _ _ _
        · intro k; simp
        · simp
        · simp
        · intro k; simp only [setLow_g, Grid.state_setState]
          by_cases hk : k = n
          · subst hk; simp [h1, h2]
          · simp [hk]
        · intro x
          show Queued (St.setLow _ _) x ↔ _
          rw [queued_pushLow]
          show Queued s x ∨ x = n ↔ _
          constructor
          · rintro (h | rfl)
            · exact Or.inl h
            · exact Or.inr ⟨rfl, h1, h2⟩
          · rintro (h | ⟨h, _⟩)
            · exact Or.inl h
            · exact Or.inr h
      · refine ⟨?_, ?_, ?_, ?_, ?_, ?_⟩
        · simp only [setHigh_g]; exact sameMap_setState _ _ _
        · intro k; simp
        · simp
        · simp
        · intro k; simp only [setHigh_g, Grid.state_setState]
          by_cases hk : k = n
          · subst hk; simp [h1, h2]
          · simp [hk]
        · intro x
          rw [queued_pushHigh]
          show Queued s x ∨ x = n ↔ _
          constructor
          · rintro (h | rfl)
            · exact Or.inl h
            · exact Or.inr ⟨rfl, h1, h2⟩
          · rintro (h | ⟨h, _⟩)
            · exact Or.inl h
            · exact Or.inr h
    | false =>
      simp only [h1, if_true, Bool.false_eq_true, if_false]
      refine ⟨SameMap.refl _, fun _ => by trivial, by trivial, by trivial, ?_, ?_⟩
      · intro k
        by_cases hk : k = n
        · subst hk; simp [h2]
        · simp [hk]
      · intro x
        constructor
        · exact Or.inl
        · rintro (h | ⟨rfl, _, h⟩)
          · exact h
          · rw [h2] at h; cases h
  · simp only [h1, if_false]
    refine ⟨SameMap.refl _, fun _ => by trivial, by trivial, by trivial, ?_, ?_⟩
    · intro k
      by_cases hk : k = n
      · subst hk; simp [h1]
      · simp [hk]
    · intro x
      constructor
      · exact Or.inl
      · rintro (h | ⟨rfl, h, _⟩)
        · exact h
        · exact absurd h h1

theorem openAll_spec (t : F) : ∀ (ns : List Nat) (s : St F),
    SameMap s.g (ns.foldl (openNbr t) s).g ∧ (∀ k, (ns.foldl (openNbr t) s).g.value k = s.g.value k) ∧
    (ns.foldl (openNbr t) s).stop = s.stop ∧ (ns.foldl (openNbr t) s).inner = s.inner ∧
    (∀ k, (ns.foldl (openNbr t) s).g.state k =
      if k ∈ ns ∧ s.g.state k = .frozen ∧ Arith.better t (s.g.value k) = true then .opn else s.g.state k) ∧
    (∀ x, Queued (ns.foldl (openNbr t) s) x ↔ Queued s x ∨ (x ∈ ns ∧ s.g.state x = .frozen ∧ Arith.better t (s.g.value x) = true)) := by
  intro ns
  induction ns with
  | nil => intro s; exact ⟨SameMap.refl _, fun _ => rfl, rfl, rfl, by simp, by simp⟩
  | cons n ns ih =>
    intro s
    obtain ⟨a1, a2, a3, a4, a5, a6⟩ := openNbr_spec t s n
    obtain ⟨b1, b2, b3, b4, b5, b6⟩ := ih (openNbr t s n)
    rw [List.foldl_cons]
    refine ⟨a1.trans b1, fun k => (b2 k).trans (a2 k), b3.trans a3, b4.trans a4, ?_, ?_⟩
    · intro k
      rw [b5, a5, a2]
      by_cases hk : k = n <;> by_cases hf : s.g.state k = .frozen <;> by_cases hb : Arith.better t (s.g.value k) = true <;>
        by_cases hm : k ∈ ns <;> simp [hk, hf, hb, hm] <;> simp_all
    · intro x
      rw [b6, a6, a5, a2]
      by_cases hk : x = n <;> by_cases hf : s.g.state x = .frozen <;> by_cases hb : Arith.better t (s.g.value x) = true <;>
        by_cases hm : x ∈ ns <;> simp [hk, hf, hb, hm] <;> simp_all

/-- what one iteration of the inner loop does -/
structure Popped (goal : Nat) (eik : Eik F) (s s' : St F) (idx : Nat) (b : Bool) : Prop where
  tried : Tried eik s.g s'.g idx b
  free : s.g.occ idx = false
  inner : s'.inner = s.inner
  stop : s'.stop = true → s.stop = true ∨ idx = goal
  queued : ∀ x, Queued s x → x = idx ∨ Queued s' x
  fromQ : ∀ x, Queued s' x → Queued s x ∨ (b = true ∧ x ∈ s.g.shape.nbrs idx)
  qlen : b = false → qlen s' + 1 = qlen s
  yes : b = true → (∀ k, s'.g.state k = if k = idx then .frozen else
      if k ∈ s.g.shape.nbrs idx ∧ s.g.state k = .frozen ∧ Arith.better (eik s.g idx).1 (s'.g.value k) = true then .opn else s.g.state k) ∧
      ∀ x, x ∈ s.g.shape.nbrs idx → s.g.state x = .frozen → Arith.better (eik s.g idx).1 (s'.g.value x) = true → Queued s' x
  no : b = false → Arith.better (eik s.g idx).1 (s.g.value idx) = false ∧ ∀ k, s'.g.state k = if k = idx then .frozen else s.g.state k

theorem popBody_cases (goal : Nat) (eik : Eik F) (s : St F) (idx : Nat) (rest : List Nat) (hlow : s.low = idx :: rest) :
    (s.g.occ idx = true ∧ popBody goal eik s idx rest = s.setLow rest) ∨ ∃ b, Popped goal eik s (popBody goal eik s idx rest) idx b := by
  unfold popBody
  simp only [setLow_g]
  cases ho : s.g.occ idx with
  | true => left; simp
  | false =>
    right
    simp only [Bool.false_eq_true, if_false, Grid.value_setScratch]
    rcases Bool.eq_false_or_eq_true (Arith.better (eik s.g idx).1 (s.g.value idx)) with hb | hb
    · refine ⟨true, ?_⟩
      simp only [hb, if_true]
      set s2 : St F := { s.setLow rest with g := (s.g.setScratch (eik s.g idx).2).setValue idx (eik s.g idx).1 } with hs2
      obtain ⟨b1, b2, b3, b4, b5, b6⟩ := openAll_spec (eik s.g idx).1 ((s.g.setScratch (eik s.g idx).2).shape.nbrs idx) s2
      have hv2 : ∀ k, s2.g.value k = if k = idx then (eik s.g idx).1 else s.g.value k := by
        intro k; rw [hs2]; simp [Grid.value_setValue]
      have hst2 : ∀ k, s2.g.state k = s.g.state k := by intro k; rw [hs2]; simp
      have hq2 : ∀ x, Queued s2 x ↔ Queued (s.setLow rest) x := fun x => Iff.rfl
      have hsh : (s.g.setScratch (eik s.g idx).2).shape = s.g.shape := rfl
      rw [hsh] at b1 b2 b3 b4 b5 b6 ⊢
      refine ⟨⟨?_, ?_, ?_, by simp⟩, ho, ?_, ?_, ?_, ?_, by simp, ?_, by simp⟩
      · exact (((sameMap_setScratch s.g _).trans (sameMap_setValue _ _ _)).trans b1).trans (sameMap_setState _ _ _)
      · intro k hk
        simp only [Grid.value_setState]
        rw [b2, hv2, if_neg hk]
      · intro _
        simp only [Grid.value_setState]
        rw [b2, hv2, if_pos rfl]
        exact ⟨hb, rfl⟩
      · show St.inner _ = _
        rw [b4]; simp [hs2]
      · dsimp only
        split
        · next h => exact fun _ => Or.inr h
        · rw [b3]; simp only [hs2, setLow_stop]; exact Or.inl
      · intro x hx
        rw [queued_pop hlow] at hx
        rcases hx with hx | hx
        · exact Or.inl hx
        · exact Or.inr ((b6 x).2 (Or.inl hx))
      · intro x hx
        rcases (b6 x).1 hx with hx | ⟨hx, _⟩
        · exact Or.inl ((queued_pop hlow x).2 (Or.inr hx))
        · exact Or.inr ⟨rfl, hx⟩
      · intro _
        constructor
        · intro k
          simp only [Grid.state_setState, Grid.value_setState]
          rw [b2, b5, hst2]
        · intro x hx hf hbt
          simp only [Grid.value_setState] at hbt
          rw [b2] at hbt
          exact (b6 x).2 (Or.inr ⟨hx, by rw [hst2]; exact hf, hbt⟩)
    · refine ⟨false, ?_⟩
      simp only [hb, Bool.false_eq_true, if_false]
      refine ⟨⟨?_, ?_, by simp, ?_⟩, ho, by simp, ?_, ?_, ?_, ?_, by simp, ?_⟩
      · exact (sameMap_setScratch s.g _).trans (sameMap_setState _ _ _)
      · intro k hk; simp
      · intro _; simp
      · dsimp only
        split
        · next h => exact fun _ => Or.inr h
        · simp only [setLow_stop]; exact Or.inl
      · intro x hx
        exact (queued_pop hlow x).1 hx
      · intro x hx
        exact Or.inl ((queued_pop hlow x).2 (Or.inr hx))
      · intro _
        rw [qlen_pop hlow]; rfl
      · intro _
        refine ⟨hb, ?_⟩
        intro k; simp [Grid.state_setState]

/-- the three kinds of transitions -/
theorem step_cases {goal : Nat} {eik : Eik F} {s s' : St F} (h : Step goal eik s s') :
    (s.inner = false ∧ ¬ (s.stop = true ∨ (s.q0 = [] ∧ s.q1 = [])) ∧ s' = { s with inner := true }) ∨
    (s.inner = true ∧ (s.stop = true ∨ s.low = []) ∧ s' = turn s) ∨
    (s.inner = true ∧ s.stop = false ∧ ∃ idx rest, s.low = idx :: rest ∧
      ((s.g.occ idx = true ∧ s' = s.setLow rest) ∨ ∃ b, Popped goal eik s s' idx b)) := by
  obtain ⟨hnd, rfl⟩ := h
  unfold Done at hnd
  unfold next
  cases hin : s.inner with
  | false =>
    left
    rw [hin] at hnd
    refine ⟨rfl, fun hc => hnd ⟨rfl, hc⟩, by simp⟩
  | true =>
    right
    simp only [if_true]
    cases hst : s.stop with
    | true => left; simp
    | false =>
      cases hl : s.low with
      | nil => left; simp
      | cons idx rest =>
        right
        refine ⟨by trivial, by trivial, idx, rest, by trivial, ?_⟩
        exact popBody_cases goal eik s idx rest hl

/-- induction over the grid along a run -/
theorem run_grid {goal : Nat} {eik : Eik F} {J : Grid F → Prop} {n : Nat} {s t : St F} (hs : Steps (Step goal eik) n s t) (h0 : J s.g)
    (h : ∀ a b i c, J a.g → Popped goal eik a b i c → J b.g) : J t.g := by
  refine Steps.inv (I := fun t : St F => J t.g) ?_ hs h0
  intro a b ha hst
  rcases step_cases hst with ⟨_, _, rfl⟩ | ⟨_, _, rfl⟩ | ⟨_, _, idx, rest, _, ⟨_, rfl⟩ | ⟨c, hp⟩⟩
  · exact ha
  · exact ha
  · simpa using ha
  · exact h a b idx c ha hp

/-! ### initialisation -/

theorem initNbrs_spec (ns : List Nat) : ∀ s : Grid F × List Nat,
    SameMap s.1 (ns.foldl initNbr s).1 ∧ (∀ k, (ns.foldl initNbr s).1.value k = s.1.value k) ∧
    (∀ k, (ns.foldl initNbr s).1.state k = if k ∈ ns ∧ s.1.occ k = false then .opn else s.1.state k) ∧
    (∀ x, x ∈ (ns.foldl initNbr s).2 ↔ x ∈ s.2 ∨ (x ∈ ns ∧ s.1.occ x = false)) := by
  induction ns with
  | nil => intro s; exact ⟨SameMap.refl _, fun _ => rfl, by simp, by simp⟩
  | cons n ns ih =>
    intro s
    rw [List.foldl_cons]
    cases ho : s.1.occ n with
    | true =>
      have e : initNbr s n = s := by unfold initNbr; simp [ho]
      rw [e]
      obtain ⟨a1, a2, a3, a4⟩ := ih s
      refine ⟨a1, a2, ?_, ?_⟩
      · intro k; rw [a3]
        by_cases hk : k = n
        · subst hk; simp [ho]
        · simp [hk]
      · intro x; rw [a4]
        by_cases hk : x = n
        · subst hk; simp [ho]
        · simp [hk]
    | false =>
      have e : initNbr s n = (s.1.setState n .opn, s.2 ++ [n]) := by unfold initNbr; simp [ho]
      rw [e]
      obtain ⟨a1, a2, a3, a4⟩ := ih (s.1.setState n .opn, s.2 ++ [n])
      have hocc : ∀ k, (s.1.setState n .opn).occ k = s.1.occ k := SameMap.occ_eq (sameMap_setState _ _ _)
      refine ⟨(sameMap_setState s.1 n .opn).trans a1, fun k => by rw [a2]; simp, ?_, ?_⟩
      · intro k; rw [a3]
        simp only [hocc, Grid.state_setState]
        by_cases hk : k = n
        · subst hk; simp [ho]
        · simp [hk]
      · intro x; rw [a4]
        simp only [hocc]
        by_cases hk : x = n
        · subst hk; simp [ho]
        · simp [hk]

theorem initPts_spec (pts : List Nat) : ∀ s : Grid F × List Nat,
    SameMap s.1 (pts.foldl initPoint s).1 ∧
    (∀ k, (pts.foldl initPoint s).1.value k = if k ∈ pts then Arith.zero else s.1.value k) ∧
    (∀ k, (pts.foldl initPoint s).1.state k = if (∃ p ∈ pts, k ∈ s.1.shape.nbrs p) ∧ s.1.occ k = false then .opn else s.1.state k) ∧
    (∀ x, x ∈ (pts.foldl initPoint s).2 ↔ x ∈ s.2 ∨ ((∃ p ∈ pts, x ∈ s.1.shape.nbrs p) ∧ s.1.occ x = false)) := by
  induction pts with
  | nil => intro s; exact ⟨SameMap.refl _, by simp, by simp, by simp⟩
  | cons p ps ih =>
    intro s
    rw [List.foldl_cons]
    obtain ⟨a1, a2, a3, a4⟩ := initNbrs_spec (s.1.shape.nbrs p) (s.1.setValue p Arith.zero, s.2)
    obtain ⟨b1, b2, b3, b4⟩ := ih (initPoint s p)
    have hm : SameMap s.1 (initPoint s p).1 := (sameMap_setValue s.1 p Arith.zero).trans a1
    have hocc0 : ∀ k, (s.1.setValue p Arith.zero).occ k = s.1.occ k := SameMap.occ_eq (sameMap_setValue _ _ _)
    refine ⟨hm.trans b1, ?_, ?_, ?_⟩
    · intro k
      rw [b2]
      have : (initPoint s p).1.value k = if k = p then Arith.zero else s.1.value k := by
        show Grid.value (Prod.fst (List.foldl _ _ _)) k = _
        rw [a2]; exact Grid.value_setValue _ _ _ _
      rw [this]
      by_cases h1 : k ∈ ps <;> by_cases h2 : k = p <;> simp [h1, h2]
    · intro k
      rw [b3, hm.shape, SameMap.occ_eq hm]
      have : (initPoint s p).1.state k = if k ∈ s.1.shape.nbrs p ∧ s.1.occ k = false then .opn else s.1.state k := by
        show Grid.state (Prod.fst (List.foldl _ _ _)) k = _
        rw [a3]; simp only [hocc0, Grid.state_setValue]
      rw [this]
      by_cases h1 : ∃ q ∈ ps, k ∈ s.1.shape.nbrs q <;> by_cases h2 : k ∈ s.1.shape.nbrs p <;> by_cases h3 : s.1.occ k = false <;>
        simp [h1, h2, h3]
    · intro x
      rw [b4, hm.shape, SameMap.occ_eq hm]
      have : x ∈ (initPoint s p).2 ↔ x ∈ s.2 ∨ (x ∈ s.1.shape.nbrs p ∧ s.1.occ x = false) := by
        show x ∈ (Prod.snd (List.foldl _ _ _)) ↔ _
        rw [a4]; simp only [hocc0]
      rw [this]
      by_cases h1 : ∃ q ∈ ps, x ∈ s.1.shape.nbrs q <;> by_cases h2 : x ∈ s.1.shape.nbrs p <;> by_cases h3 : s.1.occ x = false <;>
        simp [h1, h2, h3]

theorem init_sameMap (g : Grid F) (pts : List Nat) (th ths : F) : SameMap g (init g pts th ths).g :=
  (FSM.allState_sameMap .frozen g).trans (initPts_spec pts (FSM.allState .frozen g, [])).1

theorem init_value (g : Grid F) (pts : List Nat) (th ths : F) (k : Nat) :
    (init g pts th ths).g.value k = if k ∈ pts then Arith.zero else g.value k := by
  have := (initPts_spec pts (FSM.allState .frozen g, [])).2.1 k
  rw [FSM.allState_value] at this
  exact this

theorem init_state (g : Grid F) (pts : List Nat) (th ths : F) (k : Nat) (hk : k < g.shape.ncells) :
    (init g pts th ths).g.state k = if (∃ p ∈ pts, k ∈ g.shape.nbrs p) ∧ g.occ k = false then .opn else .frozen := by
  have := (initPts_spec pts (FSM.allState .frozen g, [])).2.2.1 k
  simp only [FSM.allState_state, if_pos hk, SameMap.occ_eq (FSM.allState_sameMap .frozen g)] at this
  exact this

theorem init_queued (g : Grid F) (pts : List Nat) (th ths : F) (x : Nat) :
    Queued (init g pts th ths) x ↔ (∃ p ∈ pts, x ∈ g.shape.nbrs p) ∧ g.occ x = false := by
  have := (initPts_spec pts (FSM.allState .frozen g, [])).2.2.2 x
  simp only [SameMap.occ_eq (FSM.allState_sameMap .frozen g)] at this
  have e : Queued (init g pts th ths) x ↔ x ∈ (pts.foldl initPoint (FSM.allState .frozen g, [])).2 := by
    unfold Queued init; simp
  rw [e, this]
  simp; intro _; rfl

/-! ## C20, C11, C25 -/

/-- **C20** for DDQM -/
theorem _root_.FMV.C20_DDQM (goal : Nat) (eik : Eik F) (g : Grid F) (pts : List Nat) (th ths : F) (n : Nat) (s : St F)
    (hs : Steps (Step goal eik) n (init g pts th ths) s) : SameMap g s.g :=
  run_grid (J := fun g' => SameMap g g') hs (init_sameMap g pts th ths) (fun _ _ _ _ h hp => h.trans hp.tried.map)

/-- **C11** for DDQM -/
theorem _root_.FMV.C11_DDQM (goal : Nat) (eik : Eik F) (g : Grid F) (pts : List Nat) (th ths : F) (n : Nat) (s : St F)
    (hs : Steps (Step goal eik) n (init g pts th ths) s) (i : Nat) (ho : g.occ i = true) (hi : i ∉ pts) :
    s.g.value i = g.value i := by
  have := run_grid (J := fun g' : Grid F => g'.value i = g.value i ∧ g'.occ i = true) hs
    ⟨by rw [init_value, if_neg hi], by rw [SameMap.occ_eq (init_sameMap g pts th ths)]; exact ho⟩ ?_
  · exact this.1
  · rintro a b k c ⟨h1, h2⟩ hp
    have hne : i ≠ k := by rintro rfl; have := hp.free; rw [h2] at this; cases this
    exact ⟨by rw [hp.tried.other i hne]; exact h1, by rw [SameMap.occ_eq hp.tried.map]; exact h2⟩

/-- **C25** for DDQM: between any two moments of a run every arrival time is unchanged or smaller by more than COMP_MARGIN. -/
theorem _root_.FMV.C25_DDQM (L : MarginLaws F) (goal : Nat) (eik : Eik F) (n : Nat) (s t : St F)
    (hs : Steps (Step goal eik) n s t) (k : Nat) :
    t.g.value k = s.g.value k ∨ Arith.better (t.g.value k) (s.g.value k) = true :=
  run_grid (J := fun g' => Lower s.g g') hs (Lower.refl _) (fun _ _ _ _ h hp => h.trans L hp.tried.lower) k

/-! ## C27: termination -/

/-- phase counter of the two loops -/
def ph (s : St F) : Nat :=
  if s.inner then (if s.stop then 1 else if s.low = [] then 2 else 0)
  else if s.stop = true ∨ (s.q0 = [] ∧ s.q1 = []) then 0 else if s.low = [] then 3 else 1

def meas {good : F → Prop} (R : Ranked F good) (N : Nat) (s : St F) : (Fin N → WithTop ℕ) ×ₗ (ℕ ×ₗ ℕ) :=
  toLex (rkVec R N s.g, toLex (qlen s, ph s))

theorem lex_wf (N : Nat) : WellFounded (fun a b : (Fin N → WithTop ℕ) ×ₗ (ℕ ×ₗ ℕ) => a < b) := by
  have h2 : WellFounded (fun a b : ℕ ×ₗ ℕ => a < b) := WellFounded.prod_lex (Nat.lt_wfRel.wf) (Nat.lt_wfRel.wf)
  exact WellFounded.prod_lex (rkVec_wf N) h2

/-- every queued cell is inside the grid -/
structure QInv (dims : List Nat) (s : St F) : Prop where
  shape : s.g.shape = Shape.mk' dims
  inq : ∀ x, Queued s x → x < dims.prod

theorem low_queued {s : St F} {idx : Nat} {rest : List Nat} (h : s.low = idx :: rest) : Queued s idx :=
  (queued_pop h idx).2 (Or.inl rfl)

theorem QInv.step {dims : List Nat} (hf : Fits dims (2^31+1)) {goal : Nat} {eik : Eik F} {s t : St F} (I : QInv dims s)
    (hst : Step goal eik s t) : QInv dims t := by
  rcases step_cases hst with ⟨_, _, rfl⟩ | ⟨_, _, rfl⟩ | ⟨_, _, idx, rest, hl, ⟨_, rfl⟩ | ⟨c, hp⟩⟩
  · exact ⟨I.shape, I.inq⟩
  · exact ⟨I.shape, I.inq⟩
  · exact ⟨by simpa using I.shape, fun x hx => I.inq x ((queued_pop hl x).2 (Or.inr hx))⟩
  · refine ⟨hp.tried.map.shape.trans I.shape, ?_⟩
    intro x hx
    rcases hp.fromQ x hx with h | ⟨_, h⟩
    · exact I.inq x h
    · rw [I.shape] at h
      exact nbr_lt hf (I.inq idx (low_queued hl)) h

theorem QInv.start {dims : List Nat} {g : Grid F} {pts : List Nat} (hin : Input dims g pts) (th ths : F) :
    QInv dims (init g pts th ths) := by
  refine ⟨(init_sameMap g pts th ths).shape.trans hin.shape, ?_⟩
  intro x hx
  obtain ⟨⟨p, hp, hx⟩, _⟩ := (init_queued g pts th ths x).1 hx
  rw [hin.shape] at hx
  exact nbr_lt hin.fits (hin.inside p hp) hx

theorem step_meas {good : F → Prop} {R : Ranked F good} {eik : Eik F} {dims : List Nat} (hf : Fits dims (2^31+1)) {J : Grid F → Prop}
    (K : Keeps R eik dims.prod J) {goal : Nat} {s t : St F} (I : QInv dims s) (hJ : J s.g) (hst : Step goal eik s t) :
    J t.g ∧ meas R dims.prod t < meas R dims.prod s := by
  unfold meas
  rw [Prod.Lex.toLex_lt_toLex]
  rcases step_cases hst with ⟨hin, hnd, rfl⟩ | ⟨hin, hc, rfl⟩ | ⟨hin, hstop, idx, rest, hl, ⟨_, rfl⟩ | ⟨c, hp⟩⟩
  · refine ⟨hJ, Or.inr ⟨rfl, ?_⟩⟩
    rw [Prod.Lex.toLex_lt_toLex]
    refine Or.inr ⟨rfl, ?_⟩
    have hstop : s.stop = false := by
      cases h : s.stop with
      | false => rfl
      | true => exact absurd (Or.inl h) hnd
    have e : ph { s with inner := true } = if s.low = [] then 2 else 0 := by
      unfold ph; simp [hstop]; rfl
    show ph { s with inner := true } < ph s
    have e' : ph s = if s.low = [] then 3 else 1 := by
      unfold ph
      rw [if_neg (by rw [hin]; simp), if_neg hnd]
    rw [e, e']
    split <;> omega
  · refine ⟨hJ, Or.inr ⟨rfl, ?_⟩⟩
    rw [Prod.Lex.toLex_lt_toLex]
    refine Or.inr ⟨rfl, ?_⟩
    show ph (turn s) < ph s
    have hti : (turn s).inner = false := rfl
    cases hstop : s.stop with
    | true =>
      have e : ph (turn s) = 0 := by
        unfold ph
        rw [if_neg (by rw [hti]; simp), if_pos (Or.inl (show (turn s).stop = true from hstop))]
      rw [e]
      unfold ph; simp [hin, hstop]
    | false =>
      have hl : s.low = [] := by
        rcases hc with hc | hc
        · rw [hstop] at hc; cases hc
        · exact hc
      have e2 : ph s = 2 := by unfold ph; simp [hin, hstop, hl]
      rw [e2]
      unfold ph
      rw [if_neg (by rw [hti]; simp)]
      split
      · omega
      · next hne =>
        have : (turn s).low ≠ [] := by
          intro h0
          apply hne
          right
          unfold St.low at hl h0
          have hlq : (turn s).lq = !s.lq := rfl
          have h1 : (turn s).q0 = s.q0 := rfl
          have h2 : (turn s).q1 = s.q1 := rfl
          rw [hlq, h1, h2] at h0
          rw [h1, h2]
          cases hq : s.lq <;> simp_all
        rw [if_neg this]; omega
  · refine ⟨by simpa using hJ, Or.inr ⟨by simp, ?_⟩⟩
    rw [Prod.Lex.toLex_lt_toLex]
    left
    show qlen (s.setLow rest) < qlen s
    rw [qlen_pop hl]; omega
  · have hi := I.inq idx (low_queued hl)
    refine ⟨K.tried _ _ _ _ hJ hp.tried hi hp.free, ?_⟩
    obtain ⟨g1, g2⟩ := K.good _ _ hJ hi hp.free
    rcases hp.tried.rk R hi g1 g2 with ⟨_, h3⟩ | ⟨hc, h3⟩
    · exact Or.inl h3
    · refine Or.inr ⟨h3, ?_⟩
      rw [Prod.Lex.toLex_lt_toLex]
      left
      have := hp.qlen hc
      show qlen t < qlen s
      omega

theorem terminates {good : F → Prop} {R : Ranked F good} {eik : Eik F} {dims : List Nat} (hf : Fits dims (2^31+1)) {J : Grid F → Prop}
    (K : Keeps R eik dims.prod J) (goal : Nat) (s : St F) (I : QInv dims s) (hJ : J s.g) :
    (∃ n t, Steps (Step goal eik) n s t ∧ Done t) ∧ ¬ ∃ f : Nat → St F, f 0 = s ∧ ∀ n, Step goal eik (f n) (f (n+1)) := by
  have hI : ∀ a b, (QInv dims a ∧ J a.g) → Step goal eik a b → (QInv dims b ∧ J b.g) :=
    fun a b ⟨h1, h2⟩ hst => ⟨h1.step hf hst, (step_meas hf K h1 h2 hst).1⟩
  have hdec : ∀ a b, (QInv dims a ∧ J a.g) → Step goal eik a b → meas R dims.prod b < meas R dims.prod a :=
    fun a b ⟨h1, h2⟩ hst => (step_meas hf K h1 h2 hst).2
  constructor
  · exact exists_done_wf (lex_wf dims.prod) (meas R dims.prod) hI hdec (fun a _ hnd => ⟨_, hnd, rfl⟩) s ⟨I, hJ⟩
  · rintro ⟨f, h0, hf'⟩
    exact no_infinite_wf (lex_wf dims.prod) (meas R dims.prod) hI hdec ⟨f, by rw [h0]; exact ⟨I, hJ⟩, hf'⟩

/-- **C27**, termination in any finite arithmetic with the margin laws, whatever the local solver returns and whatever the threshold. -/
theorem _root_.FMV.C27_DDQM_finite_arithmetic [Fintype F] (L : MarginLaws F) (goal : Nat) (eik : Eik F) (dims : List Nat) (g : Grid F)
    (pts : List Nat) (hin : Input dims g pts) (th ths : F) :
    (∃ n s, Steps (Step goal eik) n (init g pts th ths) s ∧ Done s) ∧
    ¬ ∃ f : Nat → St F, f 0 = init g pts th ths ∧ ∀ n, Step goal eik (f n) (f (n+1)) :=
  terminates hin.fits (keeps_true L eik dims.prod) goal _ (QInv.start hin th ths) trivial

section exact
variable {dims : List Nat} {g : Grid XR} {h : ℝ} {v : Nat → ℝ} {pts : List Nat}

theorem init_sinv (X : XInput dims g h v pts) (hfr : Fresh g) (th ths : XR) : X.SInv (init g pts th ths).g :=
  XInput.SInv.start X (init_sameMap _ _ _ _) (fun k => by rw [init_value, hfr.value]; rfl)

/-- **C27**, termination in exact arithmetic. -/
theorem _root_.FMV.C27_DDQM_exact (X : XInput dims g h v pts) (hfr : Fresh g) (goal : Nat) (th ths : XR) :
    (∃ n s, Steps (Step goal eikS) n (init g pts th ths) s ∧ Done s) ∧
    ¬ ∃ f : Nat → St XR, f 0 = init g pts th ths ∧ ∀ n, Step goal eikS (f n) (f (n+1)) :=
  terminates X.fits (keeps_exact X) goal _ (QInv.start ⟨X.fits, X.shape, X.inside⟩ th ths) (init_sinv X hfr th ths)

/-- the invariant of DDQM -/
structure DInv (X : XInput dims g h v pts) (s : St XR) : Prop where
  q : QInv dims s
  lock : LInv X s.g
  opn : ∀ i, i < dims.prod → g.occ i = false → s.g.state i = .opn → Queued s i

theorem DInv.start (X : XInput dims g h v pts) (hfr : Fresh g) (th ths : XR) : DInv X (init g pts th ths) := by
  have hS := init_sinv X hfr th ths
  have hnc : g.shape.ncells = dims.prod := by rw [X.shape]; exact mk'_ncells (X.fits.mono (by norm_num))
  have hst : ∀ i, i < dims.prod → (init g pts th ths).g.state i =
      if (∃ p ∈ pts, i ∈ (Shape.mk' dims).nbrs p) ∧ g.occ i = false then .opn else .frozen := by
    intro i hi; rw [init_state _ _ _ _ _ (by rw [hnc]; exact hi), X.shape]
  refine ⟨QInv.start ⟨X.fits, X.shape, X.inside⟩ th ths, ⟨hS, ?_, ?_⟩, ?_⟩
  · intro i hi; rw [hst i hi]; split
    · exact Or.inl rfl
    · exact Or.inr rfl
  · intro i hi ho hf
    rw [hst i hi] at hf
    split at hf
    · cases hf
    · next hc =>
      by_cases hp : i ∈ pts
      · exact nb_source X hS hi ho hp
      · apply nb_lonely X hi ho
        intro j hj
        have hjp : j ∉ pts := fun hjp => hc ⟨⟨j, hjp, nbrs_symm X.fits hi hj⟩, ho⟩
        unfold tv
        rw [init_value, if_neg hjp, hfr.value]; rfl
  · intro i hi ho hopn
    rw [hst i hi] at hopn
    split at hopn
    · next hc => rw [init_queued, X.shape]; exact hc
    · cases hopn

theorem DInv.step (X : XInput dims g h v pts) {goal : Nat} {s t : St XR} (I : DInv X s) (hst : Step goal eikS s t) : DInv X t := by
  have hq := I.q.step X.fits hst
  rcases step_cases hst with ⟨_, _, rfl⟩ | ⟨_, _, rfl⟩ | ⟨_, _, idx, rest, hl, ⟨hocc, rfl⟩ | ⟨c, hp⟩⟩
  · exact ⟨hq, I.lock, I.opn⟩
  · exact ⟨hq, I.lock, I.opn⟩
  · refine ⟨hq, by simpa using I.lock, ?_⟩
    intro i hi ho hopn
    simp only [setLow_g] at hopn
    have := I.opn i hi ho hopn
    rw [queued_pop hl] at this
    rcases this with rfl | h
    · rw [SameMap.occ_eq I.lock.sinv.map, ho] at hocc; cases hocc
    · exact h
  · have hi := I.q.inq idx (low_queued hl)
    have hsh := I.q.shape
    refine ⟨hq, ?_, ?_⟩
    · refine LInv.lockStep X I.lock hi hp.free hp.tried ?_ (fun hc => ⟨(hp.no hc).1, fun k _ => (hp.no hc).2 k⟩)
      intro hc k hk
      rw [(hp.yes hc).1 k]
      by_cases hki : k = idx
      · simp [hki]
      · rw [if_neg hki, if_neg hki, hp.tried.other k hki, hsh]
        rcases I.lock.st k hk with hs | hs
        · simp [hs]
        · simp [hs]
    · intro i hiN ho hopn
      by_cases hii : i = idx
      · subst hii
        cases c with
        | true => rw [(hp.yes rfl).1 i, if_pos rfl] at hopn; cases hopn
        | false => rw [(hp.no rfl).2 i, if_pos rfl] at hopn; cases hopn
      · cases c with
        | true =>
          rw [(hp.yes rfl).1 i, if_neg hii] at hopn
          split at hopn
          · next hcc => exact (hp.yes rfl).2 i hcc.1 hcc.2.1 hcc.2.2
          · rcases hp.queued i (I.opn i hiN ho hopn) with h | h
            · exact absurd h hii
            · exact h
        | false =>
          rw [(hp.no rfl).2 i, if_neg hii] at hopn
          rcases hp.queued i (I.opn i hiN ho hopn) with h | h
          · exact absurd h hii
          · exact h

theorem DInv.run (X : XInput dims g h v pts) (hfr : Fresh g) {goal : Nat} {th ths : XR} {n : Nat} {s : St XR}
    (hs : Steps (Step goal eikS) n (init g pts th ths) s) : DInv X s :=
  Steps.inv (I := fun s : St XR => DInv X s) (fun _ _ I hst => DInv.step X I hst) hs (DInv.start X hfr th ths)

/-- **C10** for DDQM -/
theorem _root_.FMV.C10_DDQM (X : XInput dims g h v pts) (hfr : Fresh g) (goal : Nat) (th ths : XR) (n : Nat) (s : St XR)
    (hs : Steps (Step goal eikS) n (init g pts th ths) s) (i : Nat) (hi : i ∈ pts) : s.g.value i = fin 0 := by
  have I := (DInv.run X hfr hs).lock.sinv
  have := I.src i hi
  unfold tv at this
  rw [← (I.good i).ofT_toT, this]; rfl

/-- **C18** for DDQM -/
theorem _root_.FMV.C18_DDQM (X : XInput dims g h v pts) (hfr : Fresh g) (U : Nat → WithTop ℝ) (hU : X.problem.IsSolution U)
    (goal : Nat) (th ths : XR) (n : Nat) (s : St XR) (hs : Steps (Step goal eikS) n (init g pts th ths) s) (i : Nat) (hi : i < dims.prod) :
    GoodT (s.g.value i) ∧ U i ≤ toT (s.g.value i) := by
  have I := (DInv.run X hfr hs).lock.sinv
  exact ⟨I.good i, I.low U hU i hi⟩

theorem stop_false (X : XInput dims g h v pts) (hfr : Fresh g) {goal : Nat} (hgoal : dims.prod ≤ goal) {th ths : XR} {n : Nat} {s : St XR}
    (hs : Steps (Step goal eikS) n (init g pts th ths) s) : s.stop = false := by
  have : s.stop = false ∧ QInv dims s := by
    refine Steps.inv (I := fun s : St XR => s.stop = false ∧ QInv dims s) ?_ hs ⟨rfl, QInv.start ⟨X.fits, X.shape, X.inside⟩ th ths⟩
    rintro a b ⟨h1, h2⟩ hst
    refine ⟨?_, h2.step X.fits hst⟩
    rcases step_cases hst with ⟨_, _, rfl⟩ | ⟨_, _, rfl⟩ | ⟨_, _, idx, rest, hl, ⟨hocc, rfl⟩ | ⟨c, hp⟩⟩
    · exact h1
    · exact h1
    · simpa using h1
    · by_contra hc
      rcases hp.stop (by simpa using hc) with h | h
      · rw [h1] at h; cases h
      · have := h2.inq idx (low_queued hl); omega
  exact this.1

/-- **C27**: when DDQM without goal has stopped, no free cell can be improved by more than COMP_MARGIN, whatever the initial threshold and
threshold step. -/
theorem _root_.FMV.C27_DDQM_fixpoint (X : XInput dims g h v pts) (hfr : Fresh g) (goal : Nat) (hgoal : dims.prod ≤ goal) (th ths : XR)
    (n : Nat) (s : St XR) (hs : Steps (Step goal eikS) n (init g pts th ths) s) (hdone : Done s) (i : Nat) (hi : i < dims.prod)
    (ho : g.occ i = false) : Arith.better (solveEikonal s.g i) (s.g.value i) = false := by
  have I := DInv.run X hfr hs
  have hstop := stop_false X hfr hgoal hs
  have hemp : s.q0 = [] ∧ s.q1 = [] := by
    rcases hdone.2 with h | h
    · rw [hstop] at h; cases h
    · exact h
  have hfz : s.g.state i = .frozen := by
    rcases I.lock.st i hi with h | h
    · have := I.opn i hi ho h
      unfold Queued at this
      rw [hemp.1, hemp.2] at this
      simp at this
    · exact h
  have hnb := I.lock.lock i hi ho hfz
  have IF := I.lock
  rw [← eikS_eq_solve X.fits X.two (IF.sinv.map.shape.trans X.shape) hi]
  by_contra hc
  exact hnb ((X.better_iff IF.sinv.map IF.sinv.good hi ho).1 (by simpa using hc))

/-- Accuracy of DDQM (part of **C28**). -/
theorem _root_.FMV.C28_DDQM_accuracy (X : XInput dims g h v pts) (hfr : Fresh g) (U : Nat → WithTop ℝ) (hU : X.problem.IsSolution U)
    (goal : Nat) (hgoal : dims.prod ≤ goal) (th ths : XR) (n : Nat) (s : St XR) (hs : Steps (Step goal eikS) n (init g pts th ths) s)
    (hdone : Done s) (i : Nat) (hi : i < dims.prod) :
    U i ≤ toT (s.g.value i) ∧ toT (s.g.value i) ≤ U i + ((dims.prod * (2 * eps) : ℝ) : WithTop ℝ) :=
  accurate_of_fix X (DInv.run X hfr hs).lock.sinv U hU
    (fun i hi ho => C27_DDQM_fixpoint X hfr goal hgoal th ths n s hs hdone i hi ho) i hi

end exact

/-- non-vacuity: on a 3x3 grid with two starts DDQM without goal stops -/
example : ∃ (g : Grid XR), XInput [3,3] g 1 (fun _ => 1) [0, 8] ∧ Fresh g ∧
    ∃ n s, Steps (Step noGoal eikS) n (init g [0,8] (thStepEnv g) (thStepEnv g)) s ∧ Done s := by
  have X : XInput [3,3] (Grid.create [3,3] (fin 1) (0,0)) 1 (fun _ => 1) [0, 8] :=
    ⟨⟨by decide, by decide, by decide⟩, by decide, rfl, by decide, one_pos, rfl, fun _ _ _ => rfl⟩
  have hfr : Fresh (Grid.create (F := XR) [3,3] (fin 1) (0,0)) := ⟨fun _ => rfl, fun _ => rfl, fun _ => rfl⟩
  exact ⟨_, X, hfr, (C27_DDQM_exact X hfr noGoal _ _).1⟩

end DDQM
end FMV
