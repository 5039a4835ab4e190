import Verif.Model.FIM
import Verif.Lemmas.Prim
import Verif.Lemmas.FSMBasic
import Verif.Props.FMMExact
/-!
# FIM: C10, C11, C18, C20, C29
-/
set_option linter.unusedSectionVars false
set_option linter.unusedVariables false
namespace FMV
open Spec Shape XR FMM
variable {F : Type} [Arith F]

namespace FIM

/-- the active list -/
def Active (s : St F) (x : Nat) : Prop := x ∈ s.before ∨ x ∈ s.after

/-- every active cell is inside the grid and free -/
structure LI (dims : List Nat) (s : St F) : Prop where
  shape : s.g.shape = Shape.mk' dims
  act : ∀ x, Active s x → x < dims.prod ∧ s.g.occ x = false

theorem testNbr_li {dims : List Nat} {eik : Eik F} {J : Grid F → Prop} (P : PrimInv eik dims.prod J) {s : St F} {n : Nat}
    (I : LI dims s) (hJ : J s.g) (hn : n < dims.prod) :
    LI dims (testNbr eik s n) ∧ J (testNbr eik s n).g ∧ SameMap s.g (testNbr eik s n).g ∧ (testNbr eik s n).after = s.after ∧
      (testNbr eik s n).stop = s.stop := by
  unfold testNbr
  split
  · exact ⟨I, hJ, SameMap.refl _, rfl, rfl⟩
  · next hc =>
    have ho : s.g.occ n = false := by
      cases h : s.g.occ n with
      | false => rfl
      | true => exact absurd (Or.inr h) hc
    dsimp only
    split
    · have hm : SameMap s.g (((s.g.setScratch (eik s.g n).2).setValue n (eik s.g n).1).setState n .narrow) :=
        ((sameMap_setScratch _ _).trans (sameMap_setValue _ _ _)).trans (sameMap_setState _ _ _)
      refine ⟨⟨hm.shape.trans I.shape, ?_⟩, P.state _ _ _ (P.write _ _ hJ hn ho), hm, rfl, rfl⟩
      intro x hx
      simp only [SameMap.occ_eq hm]
      rcases hx with hx | hx
      · simp only [List.mem_append, List.mem_singleton] at hx
        rcases hx with hx | rfl
        · exact I.act x (Or.inl hx)
        · exact ⟨hn, ho⟩
      · exact I.act x (Or.inr hx)
    · have hm := sameMap_setScratch s.g (eik s.g n).2
      refine ⟨⟨hm.shape.trans I.shape, ?_⟩, P.scr _ _ hJ hn ho, hm, rfl, rfl⟩
      intro x hx
      simp only [SameMap.occ_eq hm]
      exact I.act x hx

theorem testNbrs_li {dims : List Nat} {eik : Eik F} {J : Grid F → Prop} (P : PrimInv eik dims.prod J) : ∀ (ns : List Nat) (s : St F),
    LI dims s → J s.g → (∀ n ∈ ns, n < dims.prod) →
    LI dims (ns.foldl (testNbr eik) s) ∧ J (ns.foldl (testNbr eik) s).g ∧ SameMap s.g (ns.foldl (testNbr eik) s).g ∧
      (ns.foldl (testNbr eik) s).after = s.after ∧ (ns.foldl (testNbr eik) s).stop = s.stop := by
  intro ns
  induction ns with
  | nil => intro s I hJ _; exact ⟨I, hJ, SameMap.refl _, rfl, rfl⟩
  | cons n ns ih =>
    intro s I hJ hn
    obtain ⟨a1, a2, a3, a4, a5⟩ := testNbr_li P I hJ (hn n (by simp))
    obtain ⟨b1, b2, b3, b4, b5⟩ := ih _ a1 a2 (fun m hm => hn m (by simp [hm]))
    exact ⟨b1, b2, a3.trans b3, b4.trans a4, b5.trans a5⟩

/-- one step preserves the list invariant, the map, and every property that survives the primitive writes -/
theorem step_li {dims : List Nat} (hf : Fits dims (2^31+1)) {E : F} {goal : Nat} {eik : Eik F} {J : Grid F → Prop}
    (P : PrimInv eik dims.prod J) {s t : St F} (I : LI dims s) (hJ : J s.g) (hst : Step E goal eik s t) :
    LI dims t ∧ J t.g ∧ SameMap s.g t.g := by
  obtain ⟨_, rfl⟩ := hst
  unfold next
  split
  · next x rest hs =>
    have hx := I.act x (Or.inr (by rw [hs]; simp))
    unfold visit
    dsimp only
    have hm : SameMap s.g ((s.g.setScratch (eik s.g x).2).setValue x (eik s.g x).1) :=
      (sameMap_setScratch _ _).trans (sameMap_setValue _ _ _)
    have hJ1 := P.write _ _ hJ hx.1 hx.2
    set s1 : St F := { s with g := (s.g.setScratch (eik s.g x).2).setValue x (eik s.g x).1 } with hs1
    have I1 : LI dims s1 := by
      refine ⟨hm.shape.trans I.shape, ?_⟩
      intro y hy
      rw [show s1.g.occ y = s.g.occ y from SameMap.occ_eq hm y]
      exact I.act y hy
    split
    · have hnb : ∀ n ∈ s1.g.shape.nbrs x, n < dims.prod := by
        intro n hn; rw [I1.shape] at hn; exact nbr_lt hf hx.1 hn
      obtain ⟨b1, b2, b3, b4, b5⟩ := testNbrs_li P (s1.g.shape.nbrs x) s1 I1 hJ1 hnb
      have hm2 := sameMap_setState ((s1.g.shape.nbrs x).foldl (testNbr eik) s1).g x .frozen
      refine ⟨⟨hm2.shape.trans b1.shape, ?_⟩, P.state _ _ _ b2, (hm.trans b3).trans hm2⟩
      intro y hy
      suffices h : y < dims.prod ∧ ((s1.g.shape.nbrs x).foldl (testNbr eik) s1).g.occ y = false from
        ⟨h.1, (SameMap.occ_eq hm2 y).trans h.2⟩
      rcases hy with hy | hy
      · exact b1.act y (Or.inl hy)
      · exact b1.act y (Or.inr (by rw [b4]; show y ∈ s.after; rw [hs]; simp [show y ∈ rest from hy]))
    · refine ⟨⟨I1.shape, ?_⟩, hJ1, hm⟩
      intro y hy
      apply I1.act
      rcases hy with hy | hy
      · simp only [List.mem_append, List.mem_singleton] at hy
        rcases hy with hy | rfl
        · exact Or.inl hy
        · right; show y ∈ s.after; rw [hs]; simp
      · right; show y ∈ s.after; rw [hs]; simp [show y ∈ rest from hy]
  · next hs =>
    refine ⟨⟨I.shape, ?_⟩, hJ, SameMap.refl _⟩
    intro y hy
    apply I.act
    rcases hy with hy | hy
    · simp at hy
    · exact Or.inl hy

/-! ### initialisation -/

theorem initNbrs_spec (ns : List Nat) : ∀ s : Grid F × List Nat,
    SameMap s.1 (ns.foldl initNbr s).1 ∧ (∀ k, (ns.foldl initNbr s).1.value k = s.1.value k) ∧
    (∀ k, (ns.foldl initNbr s).1.state k = if k ∈ ns ∧ s.1.state k = .opn ∧ s.1.occ k = false then .narrow else s.1.state k) ∧
    (∀ x, x ∈ (ns.foldl initNbr s).2 ↔ x ∈ s.2 ∨ (x ∈ ns ∧ s.1.state x = .opn ∧ s.1.occ x = false)) ∧
    ((∀ x ∈ s.2, s.1.state x ≠ .opn) → s.2.Nodup → (ns.foldl initNbr s).2.Nodup) := by
  induction ns with
  | nil => intro s; exact ⟨SameMap.refl _, fun _ => rfl, by simp, by simp, fun _ h => h⟩
  | cons n ns ih =>
    intro s
    rw [List.foldl_cons]
    by_cases hc : s.1.state n = .opn ∧ s.1.occ n = false
    · have e : initNbr s n = (s.1.setState n .narrow, s.2 ++ [n]) := by unfold initNbr; rw [if_pos hc]
      rw [e]
      obtain ⟨a1, a2, a3, a4, a5⟩ := ih (s.1.setState n .narrow, s.2 ++ [n])
      have hocc : ∀ k, (s.1.setState n .narrow).occ k = s.1.occ k := SameMap.occ_eq (sameMap_setState _ _ _)
      refine ⟨(sameMap_setState s.1 n .narrow).trans a1, fun k => by rw [a2]; simp, ?_, ?_, ?_⟩
      · intro k; rw [a3]
        simp only [hocc, Grid.state_setState]
        by_cases hk : k = n
        · subst hk; simp [hc.1, hc.2]
        · simp [hk]
      · intro x; rw [a4]
        simp only [hocc, Grid.state_setState]
        by_cases hk : x = n
        · subst hk; simp [hc.1, hc.2]
        · simp [hk]
      · intro h1 h2
        apply a5
        · intro x hx
          simp only [List.mem_append, List.mem_singleton] at hx
          simp only [Grid.state_setState]
          by_cases hk : x = n
          · simp [hk]
          · rcases hx with hx | hx
            · rw [if_neg hk]; exact h1 x hx
            · exact absurd hx hk
        · simp only [List.nodup_append]
          refine ⟨h2, by simp, ?_⟩
          intro a ha b hb
          simp at hb
          rintro rfl
          exact h1 a ha (hb ▸ hc.1)
    · have e : initNbr s n = s := by unfold initNbr; rw [if_neg hc]
      rw [e]
      obtain ⟨a1, a2, a3, a4, a5⟩ := ih s
      refine ⟨a1, a2, ?_, ?_, a5⟩
      · intro k; rw [a3]
        by_cases hk : k = n
        · subst hk
          have hc' : ¬ (s.1.state k = .opn ∧ s.1.occ k = false) := hc
          simp [hc']
        · simp [hk]
      · intro x; rw [a4]
        by_cases hk : x = n
        · subst hk
          have hc' : ¬ (s.1.state x = .opn ∧ s.1.occ x = false) := hc
          simp [hc']
        · simp [hk]

theorem initPoint_spec (s : Grid F × List Nat) (p : Nat) :
    SameMap s.1 (initPoint s p).1 ∧ (∀ k, (initPoint s p).1.value k = if k = p then Arith.zero else s.1.value k) ∧
    (∀ k, (initPoint s p).1.state k = if k = p then .frozen else
      if k ∈ s.1.shape.nbrs p ∧ s.1.state k = .opn ∧ s.1.occ k = false then .narrow else s.1.state k) ∧
    (∀ x, x ∈ (initPoint s p).2 ↔ x ∈ s.2 ∨ (x ≠ p ∧ x ∈ s.1.shape.nbrs p ∧ s.1.state x = .opn ∧ s.1.occ x = false)) ∧
    ((∀ x ∈ s.2, s.1.state x ≠ .opn) → s.2.Nodup → (initPoint s p).2.Nodup) := by
  obtain ⟨a1, a2, a3, a4, a5⟩ := initNbrs_spec (s.1.shape.nbrs p) ((s.1.setValue p Arith.zero).setState p .frozen, s.2)
  have hm : SameMap s.1 ((s.1.setValue p Arith.zero).setState p .frozen) :=
    (sameMap_setValue s.1 p Arith.zero).trans (sameMap_setState _ _ _)
  have hocc := SameMap.occ_eq hm
  refine ⟨hm.trans a1, ?_, ?_, ?_, ?_⟩
  · intro k
    show Grid.value (Prod.fst (List.foldl _ _ _)) k = _
    rw [a2]; simp [Grid.value_setValue]
  · intro k
    show Grid.state (Prod.fst (List.foldl _ _ _)) k = _
    rw [a3]
    simp only [hocc, Grid.state_setState, Grid.state_setValue]
    by_cases hk : k = p <;> simp [hk]
  · intro x
    show x ∈ (Prod.snd (List.foldl _ _ _)) ↔ _
    rw [a4]
    simp only [hocc, Grid.state_setState, Grid.state_setValue]
    by_cases hk : x = p <;> simp [hk]
  · intro h1 h2
    apply a5 _ h2
    intro x hx
    simp only [Grid.state_setState, Grid.state_setValue]
    by_cases hk : x = p
    · simp [hk]
    · rw [if_neg hk]; exact h1 x hx

theorem initPts_spec (pts : List Nat) : ∀ s : Grid F × List Nat, (∀ x ∈ s.2, s.1.state x ≠ .opn) → s.2.Nodup →
    SameMap s.1 (pts.foldl initPoint s).1 ∧
    (∀ k, (pts.foldl initPoint s).1.value k = if k ∈ pts then Arith.zero else s.1.value k) ∧
    (∀ k, k ∈ pts → (pts.foldl initPoint s).1.state k ≠ .opn) ∧
    (∀ k, s.1.state k ≠ .opn → (pts.foldl initPoint s).1.state k ≠ .opn) ∧
    (∀ k, s.1.occ k = false → (∃ p ∈ pts, k ∈ s.1.shape.nbrs p) → (pts.foldl initPoint s).1.state k ≠ .opn) ∧
    (∀ k, (pts.foldl initPoint s).1.state k = .narrow → s.1.state k = .narrow ∨ (k ∈ (pts.foldl initPoint s).2)) ∧
    (∀ x, x ∈ (pts.foldl initPoint s).2 → x ∈ s.2 ∨ ((∃ p ∈ pts, x ∈ s.1.shape.nbrs p) ∧ s.1.occ x = false)) ∧
    (∀ x, x ∈ s.2 → x ∈ (pts.foldl initPoint s).2) ∧
    (pts.foldl initPoint s).2.Nodup ∧
    (∀ x ∈ (pts.foldl initPoint s).2, (pts.foldl initPoint s).1.state x ≠ .opn) := by
  induction pts with
  | nil =>
    intro s h1 h2
    exact ⟨SameMap.refl _, by simp, by simp, fun _ h => h, by simp, fun _ h => Or.inl h, fun _ h => Or.inl h, fun _ h => h, h2, h1⟩
  | cons p ps ih =>
    intro s h1 h2
    rw [List.foldl_cons]
    obtain ⟨a1, a2, a3, a4, a5⟩ := initPoint_spec s p
    have h1' : ∀ x ∈ (initPoint s p).2, (initPoint s p).1.state x ≠ .opn := by
      intro x hx
      rw [a3]
      rcases (a4 x).1 hx with hx | ⟨hx, hx'⟩
      · have := h1 x hx
        split
        · simp
        · split
          · simp
          · exact this
      · rw [if_neg hx, if_pos hx']; simp
    obtain ⟨b1, b2, b3, b4, b5, b6, b7, b8, b9, b10⟩ := ih (initPoint s p) h1' (a5 h1 h2)
    refine ⟨a1.trans b1, ?_, ?_, ?_, ?_, ?_, ?_, ?_, b9, b10⟩
    · intro k; rw [b2, a2]
      by_cases h3 : k ∈ ps <;> by_cases h4 : k = p <;> simp [h3, h4]
    · intro k hk
      rcases List.mem_cons.1 hk with rfl | hk
      · apply b4; rw [a3, if_pos rfl]; simp
      · exact b3 k hk
    · intro k hk
      apply b4
      rw [a3]; split
      · simp
      · split
        · simp
        · exact hk
    · rintro k ho ⟨q, hq, hk⟩
      rcases List.mem_cons.1 hq with rfl | hq
      · apply b4
        rw [a3]
        by_cases hkq : k = q
        · simp [hkq]
        · rw [if_neg hkq]
          by_cases hop : s.1.state k = .opn
          · rw [if_pos ⟨hk, hop, ho⟩]; simp
          · split
            · simp
            · exact hop
      · apply b5
        · rw [SameMap.occ_eq a1]; exact ho
        · exact ⟨q, hq, by rw [a1.shape]; exact hk⟩
    · intro k hk
      rcases b6 k hk with h | h
      · rw [a3] at h
        by_cases hkp : k = p
        · rw [if_pos hkp] at h; cases h
        · rw [if_neg hkp] at h
          split at h
          · next hc => exact Or.inr (b8 k ((a4 k).2 (Or.inr ⟨hkp, hc⟩)))
          · exact Or.inl h
      · exact Or.inr h
    · intro x hx
      rcases b7 x hx with h | ⟨⟨q, hq, h⟩, ho⟩
      · rcases (a4 x).1 h with h | ⟨_, h⟩
        · exact Or.inl h
        · exact Or.inr ⟨⟨p, by simp, h.1⟩, h.2.2⟩
      · rw [a1.shape] at h
        rw [SameMap.occ_eq a1] at ho
        exact Or.inr ⟨⟨q, by simp [hq], h⟩, ho⟩
    · intro x hx
      exact b8 x ((a4 x).2 (Or.inl hx))

theorem initPts_sameMap (pts : List Nat) : ∀ s : Grid F × List Nat, SameMap s.1 (pts.foldl initPoint s).1 := by
  induction pts with
  | nil => intro s; exact SameMap.refl _
  | cons p ps ih => intro s; exact (initPoint_spec s p).1.trans (ih _)

theorem initPts_value (pts : List Nat) : ∀ (s : Grid F × List Nat) (k : Nat),
    (pts.foldl initPoint s).1.value k = if k ∈ pts then Arith.zero else s.1.value k := by
  induction pts with
  | nil => intro s k; simp
  | cons p ps ih =>
    intro s k
    rw [List.foldl_cons, ih, (initPoint_spec s p).2.1]
    by_cases h3 : k ∈ ps <;> by_cases h4 : k = p <;> simp [h3, h4]

theorem init_sameMap (g : Grid F) (act0 pts : List Nat) : SameMap g (init g act0 pts).g := initPts_sameMap pts (g, act0)

theorem init_value (g : Grid F) (act0 pts : List Nat) (k : Nat) :
    (init g act0 pts).g.value k = if k ∈ pts then Arith.zero else g.value k := initPts_value pts (g, act0) k

theorem LI.start {dims : List Nat} {g : Grid F} {pts : List Nat} (hin : Input dims g pts) : LI dims (init g [] pts) := by
  have sp := initPts_spec pts (g, []) (by simp) (by simp)
  refine ⟨(init_sameMap g [] pts).shape.trans hin.shape, ?_⟩
  intro x hx
  rcases hx with hx | hx
  · rcases sp.2.2.2.2.2.2.1 x hx with h | ⟨⟨p, hp, h⟩, ho⟩
    · simp at h
    · have h : x ∈ g.shape.nbrs p := h
      rw [hin.shape] at h
      exact ⟨nbr_lt hin.fits (hin.inside p hp) h, by rw [SameMap.occ_eq (init_sameMap g [] pts)]; exact ho⟩
  · simp [init] at hx

theorem run_prim {dims : List Nat} {g : Grid F} {pts : List Nat} (hin : Input dims g pts) {E : F} {goal : Nat} {eik : Eik F}
    {J : Grid F → Prop} (P : PrimInv eik dims.prod J) (h0 : J (init g [] pts).g) {n : Nat} {s : St F}
    (hs : Steps (Step E goal eik) n (init g [] pts) s) : LI dims s ∧ J s.g := by
  refine Steps.inv (I := fun s : St F => LI dims s ∧ J s.g) ?_ hs ⟨LI.start hin, h0⟩
  rintro a b ⟨h1, h2⟩ hst
  have := step_li hin.fits P h1 h2 hst
  exact ⟨this.1, this.2.1⟩

/-- **C20** for FIM: the map is never modified, in any arithmetic. -/
theorem _root_.FMV.C20_FIM (E : F) (goal : Nat) (eik : Eik F) (dims : List Nat) (g : Grid F) (pts : List Nat) (hin : Input dims g pts)
    (n : Nat) (s : St F) (hs : Steps (Step E goal eik) n (init g [] pts) s) : SameMap g s.g :=
  (run_prim hin (J := fun g' => SameMap g g')
    ⟨fun _ _ h _ _ => h.trans (sameMap_setScratch _ _), fun _ _ h _ _ => (h.trans (sameMap_setScratch _ _)).trans (sameMap_setValue _ _ _),
      fun _ _ _ h => h.trans (sameMap_setState _ _ _)⟩ (init_sameMap _ _ _) hs).2

/-- **C11** for FIM: an occupied cell keeps the time it had when the run started (0 for an initial point), in any arithmetic. -/
theorem _root_.FMV.C11_FIM (E : F) (goal : Nat) (eik : Eik F) (dims : List Nat) (g : Grid F) (pts : List Nat) (hin : Input dims g pts)
    (n : Nat) (s : St F) (hs : Steps (Step E goal eik) n (init g [] pts) s) (i : Nat) (ho : g.occ i = true) :
    s.g.value i = if i ∈ pts then Arith.zero else g.value i := by
  refine ((run_prim hin (J := fun g' => g'.value i = (if i ∈ pts then Arith.zero else g.value i) ∧ g'.occ i = true)
    ⟨?_, ?_, ?_⟩ ?_ hs).2).1
  · intro g' k h hk hok
    exact ⟨h.1, by rw [SameMap.occ_eq (sameMap_setScratch _ _)]; exact h.2⟩
  · intro g' k h hk hok
    have hne : i ≠ k := by rintro rfl; rw [h.2] at hok; cases hok
    exact ⟨by rw [Grid.value_setValue, if_neg hne]; exact h.1,
      by rw [SameMap.occ_eq ((sameMap_setScratch _ _).trans (sameMap_setValue _ _ _))]; exact h.2⟩
  · intro g' k st h
    exact ⟨by simpa using h.1, by rw [SameMap.occ_eq (sameMap_setState _ _ _)]; exact h.2⟩
  · exact ⟨init_value _ _ _ _, by rw [SameMap.occ_eq (init_sameMap g [] pts)]; exact ho⟩

section exact
variable {dims : List Nat} {g : Grid XR} {h : ℝ} {v : Nat → ℝ} {pts : List Nat}

theorem low (X : XInput dims g h v pts) (hfr : Fresh g) {E : XR} {goal n : Nat} {s : St XR}
    (hs : Steps (Step E goal eikS) n (init g [] pts) s) : LI dims s ∧ LowG X s.g :=
  run_prim X.input (LowG.prim X)
    (XInput.SInv.start X (init_sameMap _ _ _) (fun k => by rw [init_value, hfr.value]; rfl)).lowG hs

/-- **C18** for FIM: no arrival time is ever below the exact solution (or NaN, or negative), whatever the threshold, the goal and the
initial points. -/
theorem _root_.FMV.C18_FIM (X : XInput dims g h v pts) (hfr : Fresh g) (U : Nat → WithTop ℝ) (hU : X.problem.IsSolution U)
    (E : XR) (goal n : Nat) (s : St XR) (hs : Steps (Step E goal eikS) n (init g [] pts) s) (i : Nat) (hi : i < dims.prod) :
    GoodT (s.g.value i) ∧ U i ≤ toT (s.g.value i) := by
  have I := (low X hfr hs).2
  exact ⟨I.good i, I.low U hU i hi⟩

/-- times with the active cells taken as unreached -/
noncomputable def mask (g' : Grid XR) (i : Nat) : WithTop ℝ := if g'.state i = .narrow then ⊤ else tv g' i

/-- `mask`, but cell `x` is visible -/
noncomputable def maskx (x : Nat) (g' : Grid XR) (i : Nat) : WithTop ℝ := if i = x then tv g' i else mask g' i

theorem Conv.mono (X : XInput dims g h v pts) {T T' : Nat → WithTop ℝ} {δ δ' : ℝ} {i : Nat} (hi : i < dims.prod) (hδ : δ ≤ δ')
    (h1 : T' i ≤ T i) (h2 : ∀ j ∈ (Shape.mk' dims).nbrs i, T j ≤ T' j) (hc : X.Conv T δ i) : X.Conv T' δ' i := by
  intro Y hY
  have := hc Y (le_trans hY (by
    unfold mins
    apply residL_le_map
    intro k hk
    apply posSq_anti
    apply le_dimMin
    intro j hj
    exact le_trans (dimMin_le hj) (h2 j (mem_nbrs.2 ⟨k, List.mem_range.1 hk, hj⟩))))
  refine le_trans h1 (le_trans this ?_)
  have : Y + δ ≤ Y + δ' := by linarith
  exact_mod_cast this

theorem conv_test {e : ℝ} {p q : XR} (hp : GoodT p) (hq : GoodT q) (h : Arith.le (Arith.abs (Arith.sub p q)) (fin e) = true) :
    ∃ a b : ℝ, toT p = (a : WithTop ℝ) ∧ toT q = (b : WithTop ℝ) ∧ |a - b| ≤ e := by
  rcases hp with rfl | ⟨a, _, rfl⟩
  · rcases hq with rfl | ⟨b, _, rfl⟩ <;> simp [Arith.le, Arith.abs, Arith.sub, XR.add, XR.neg, XR.abs, XR.le] at h
  · rcases hq with rfl | ⟨b, _, rfl⟩
    · simp [Arith.le, Arith.abs, Arith.sub, XR.add, XR.neg, XR.abs, XR.le] at h
    · refine ⟨a, b, rfl, rfl, ?_⟩
      simpa [Arith.le, Arith.abs, Arith.sub, XR.add, XR.neg, XR.abs, XR.le, sub_eq_add_neg] using h

/-- a cell whose value changed by at most `e` in an update is converged -/
theorem conv_of_close (X : XInput dims g h v pts) {T T' : Nat → WithTop ℝ} {i : Nat} (hi : i < dims.prod) (ho : g.occ i = false) {e : ℝ}
    (he : 0 ≤ e) {a b : ℝ} (ha : T i = (a : WithTop ℝ)) (hb : T' i = (b : WithTop ℝ)) (hab : |a - b| ≤ e)
    (hu : T' i = upd (h / v i) (T i) (mins (Shape.mk' dims) T i)) (h1 : ∀ j ∈ (Shape.mk' dims).nbrs i, T' j = T j) :
    X.Conv T' (2 * eps + e) i := by
  intro Y hY
  have hm : mins (Shape.mk' dims) T' i = mins (Shape.mk' dims) T i := by
    unfold mins
    apply List.map_congr_left
    intro k hk
    unfold dimMin
    congr 1
    apply List.map_congr_left
    intro j hj
    exact h1 j (mem_nbrs.2 ⟨k, List.mem_range.1 hk, hj⟩)
  rw [hm] at hY
  by_cases hlt : (Y : WithTop ℝ) < T i
  · obtain ⟨u, hu', huY⟩ := upd_upper (X.cpos hi ho) hlt hY
    rw [hu, hu']
    have : u ≤ Y + (2 * eps + e) := by linarith [eps_pos]
    exact_mod_cast this
  · have h2 := not_lt.1 hlt
    rw [ha] at h2
    have h3 : a ≤ Y := by exact_mod_cast h2
    rw [hb]
    have h4 := abs_le.1 hab
    have : b ≤ Y + (2 * eps + e) := by linarith [eps_pos, h4.1]
    exact_mod_cast this

/-- the invariant of FIM -/
structure AInv (X : XInput dims g h v pts) (e : ℝ) (s : St XR) : Prop where
  low : LowG X s.g
  act : ∀ i, Active s i → i < dims.prod ∧ g.occ i = false ∧ s.g.state i = .narrow
  nar : ∀ i, i < dims.prod → s.g.state i = .narrow → Active s i
  nodup : (s.before ++ s.after).Nodup
  src : ∀ i ∈ pts, s.g.state i = .frozen ∧ tv s.g i = 0
  conv : ∀ i, i < dims.prod → g.occ i = false → i ∉ pts → s.g.state i ≠ .narrow → X.Conv (mask s.g) (2 * eps + e) i

/-- the invariant while the neighbours of the converged cell `x` are tested -/
structure AMid (X : XInput dims g h v pts) (e : ℝ) (x : Nat) (todo : List Nat) (s : St XR) : Prop where
  low : LowG X s.g
  act : ∀ i, Active s i → i < dims.prod ∧ g.occ i = false ∧ s.g.state i = .narrow
  nar : ∀ i, i < dims.prod → s.g.state i = .narrow → Active s i
  nodup : (s.before ++ s.after).Nodup
  src : ∀ i ∈ pts, s.g.state i = .frozen ∧ tv s.g i = 0
  xn : s.g.state x = .narrow
  conv1 : ∀ i, i < dims.prod → g.occ i = false → i ∉ pts → (s.g.state i ≠ .narrow ∨ i = x) → i ∉ todo →
    X.Conv (maskx x s.g) (2 * eps + e) i
  conv2 : ∀ i, i < dims.prod → g.occ i = false → i ∉ pts → s.g.state i ≠ .narrow → i ∈ todo → X.Conv (mask s.g) (2 * eps + e) i

theorem tv_le_maskx (x : Nat) (g' : Grid XR) (i : Nat) : tv g' i ≤ maskx x g' i := by
  unfold maskx mask; split
  · exact le_refl _
  · split
    · exact le_top
    · exact le_refl _

theorem nodup_insert {a b : List Nat} {n : Nat} (h : (a ++ b).Nodup) (hn : n ∉ a ∧ n ∉ b) : ((a ++ [n]) ++ b).Nodup := by
  have : ((a ++ [n]) ++ b).Perm (n :: (a ++ b)) := by
    rw [List.append_assoc]; exact List.perm_middle
  rw [this.nodup_iff, List.nodup_cons]
  exact ⟨by simp [hn.1, hn.2], h⟩

theorem AMid.test (X : XInput dims g h v pts) {e : ℝ} (he : 0 ≤ e) {x n : Nat} (hxN : x < dims.prod) {todo : List Nat}
    (hn : n ∈ (Shape.mk' dims).nbrs x) (hnt : n ∉ todo) {s : St XR}
    (I : AMid X e x (n :: todo) s) : AMid X e x todo (testNbr eikS s n) := by
  have hnN := nbr_lt X.fits hxN hn
  have hnx : n ≠ x := by rintro rfl; exact nbrs_irrefl X.fits hnN hn
  unfold testNbr
  split
  · next hc =>
    refine ⟨I.low, I.act, I.nar, I.nodup, I.src, I.xn, ?_, ?_⟩
    · intro i hi ho hp hs hit
      by_cases hin : i = n
      · subst hin
        exfalso
        rcases hc with hc | hc
        · rcases hs with hs | hs
          · exact hs hc
          · exact hnx hs
        · rw [SameMap.occ_eq I.low.map, ho] at hc; cases hc
      · exact I.conv1 i hi ho hp hs (by simp [hin, hit])
    · intro i hi ho hp hs hit
      exact I.conv2 i hi ho hp hs (by simp [hit])
  · next hc =>
    rw [not_or] at hc
    have ho' : s.g.occ n = false := by simpa using hc.2
    have hog : g.occ n = false := by rw [← SameMap.occ_eq I.low.map]; exact ho'
    dsimp only
    split
    · next hb =>
      have hnp : n ∉ pts := by
        intro hp
        have h0 := (I.src n hp).2
        rw [X.better_iff I.low.map I.low.good hnN hog, h0] at hb
        have h0 : 0 ≤ upd (h / v n) 0 (mins (Shape.mk' dims) (tv s.g) n) :=
          upd_nonneg (X.cpos hnN hog) (XInput.mins_nn (fun k => (I.low.good k).toT_nonneg) n)
        exact absurd hb (not_lt.2 (add_nonneg h0 (by exact_mod_cast eps_pos.le)))
      have hna : ¬ Active s n := fun ha => hc.1 (I.act n ha).2.2
      set g2 := ((s.g.setScratch (eikS s.g n).2).setValue n (eikS s.g n).1).setState n .narrow with hg2
      have hst : ∀ k, g2.state k = if k = n then .narrow else s.g.state k := by
        intro k; simp [hg2, Grid.state_setState]
      have htv : ∀ k, k ≠ n → tv g2 k = tv s.g k := by
        intro k hk; unfold tv; simp [hg2, Grid.value_setValue, hk]
      have hmask : ∀ k, mask s.g k ≤ mask g2 k := by
        intro k
        unfold mask
        rw [hst]
        by_cases hk : k = n
        · simp [hk]
        · rw [if_neg hk, htv k hk]
      have hmaskx : ∀ k, maskx x s.g k ≤ maskx x g2 k := by
        intro k
        unfold maskx
        by_cases hk : k = x
        · rw [if_pos hk, if_pos hk, htv k (by rw [hk]; exact hnx.symm)]
        · rw [if_neg hk, if_neg hk]; exact hmask k
      refine ⟨LowG.congr (I.low.write hnN ho') (sameMap_setState _ _ _) (fun _ => by simp only [Grid.value_setState, hg2]), ?_, ?_, ?_, ?_, ?_, ?_, ?_⟩
      · intro i hi
        show _ ∧ _ ∧ g2.state i = .narrow
        rw [hst]
        by_cases hin : i = n
        · subst hin; exact ⟨hnN, hog, by simp⟩
        · rw [if_neg hin]
          apply I.act
          rcases hi with hi | hi
          · simp only [List.mem_append, List.mem_singleton] at hi
            rcases hi with hi | hi
            · exact Or.inl hi
            · exact absurd hi hin
          · exact Or.inr hi
      · intro i hi hs
        have hs : g2.state i = .narrow := hs
        rw [hst] at hs
        by_cases hin : i = n
        · left; simp [hin]
        · rw [if_neg hin] at hs
          rcases I.nar i hi hs with h | h
          · left; simp [h]
          · exact Or.inr h
      · apply nodup_insert I.nodup
        unfold Active at hna
        tauto
      · intro i hi
        have hin : i ≠ n := by rintro rfl; exact hnp hi
        show g2.state i = .frozen ∧ tv g2 i = 0
        rw [hst, if_neg hin, htv i hin]
        exact I.src i hi
      · show g2.state x = .narrow
        rw [hst]; split
        · rfl
        · exact I.xn
      · intro i hi ho hp hs hit
        have hs : g2.state i ≠ .narrow ∨ i = x := hs
        have hin : i ≠ n := by
          rintro rfl
          rcases hs with hs | hs
          · exact hs (by rw [hst, if_pos rfl])
          · exact hnx hs
        rw [hst, if_neg hin] at hs
        refine Conv.mono X hi (le_refl _) ?_ (fun j _ => hmaskx j) (I.conv1 i hi ho hp hs (by simp [hin, hit]))
        show maskx x g2 i ≤ maskx x s.g i
        unfold maskx mask
        rw [hst, if_neg hin, htv i hin]
      · intro i hi ho hp hs hit
        have hs : g2.state i ≠ .narrow := hs
        have hin : i ≠ n := by rintro rfl; exact hnt hit
        rw [hst, if_neg hin] at hs
        refine Conv.mono X hi (le_refl _) ?_ (fun j _ => hmask j) (I.conv2 i hi ho hp hs (by simp [hit]))
        show mask g2 i ≤ mask s.g i
        unfold mask
        rw [hst, if_neg hin, htv i hin]
    · next hb =>
      have e1 : ∀ k, (s.g.setScratch (eikS s.g n).2).state k = s.g.state k := fun _ => rfl
      refine ⟨LowG.congr I.low (sameMap_setScratch _ _) (fun _ => rfl), I.act, I.nar, I.nodup, I.src, I.xn, ?_, ?_⟩
      · intro i hi ho hp hs hit
        show X.Conv (maskx x s.g) _ i
        by_cases hin : i = n
        · subst hin
          have hnb : ¬ (upd (h / v i) (tv s.g i) (mins (Shape.mk' dims) (tv s.g) i) + (eps : WithTop ℝ) < tv s.g i) := by
            rw [← X.better_iff I.low.map I.low.good hi ho]; exact hb
          refine Conv.mono X hi (by linarith : eps + eps ≤ 2 * eps + e) ?_ (fun j _ => tv_le_maskx x s.g j)
            (X.conv_of_not_better hi ho eps_pos.le hnb)
          unfold maskx mask
          rw [if_neg hnx, if_neg hc.1]
        · exact I.conv1 i hi ho hp hs (by simp [hin, hit])
      · intro i hi ho hp hs hit
        exact I.conv2 i hi ho hp hs (by simp [hit])

theorem AMid.tests (X : XInput dims g h v pts) {e : ℝ} (he : 0 ≤ e) {x : Nat} (hxN : x < dims.prod) : ∀ (todo : List Nat) (s : St XR),
    (∀ n ∈ todo, n ∈ (Shape.mk' dims).nbrs x) → todo.Nodup → AMid X e x todo s → AMid X e x [] (todo.foldl (testNbr eikS) s) := by
  intro todo
  induction todo with
  | nil => intro s _ _ I; exact I
  | cons n ns ih =>
    intro s h1 h2 I
    rw [List.nodup_cons] at h2
    exact ih _ (fun m hm => h1 m (by simp [hm])) h2.2 (I.test X he hxN (h1 n (by simp)) h2.1)

theorem testNbr_after (eik : Eik F) (s : St F) (n : Nat) : (testNbr eik s n).after = s.after ∧ (testNbr eik s n).stop = s.stop := by
  unfold testNbr
  split
  · exact ⟨rfl, rfl⟩
  · dsimp only; split <;> exact ⟨rfl, rfl⟩

theorem testNbrs_after (eik : Eik F) (ns : List Nat) : ∀ s : St F,
    (ns.foldl (testNbr eik) s).after = s.after ∧ (ns.foldl (testNbr eik) s).stop = s.stop := by
  induction ns with
  | nil => intro s; exact ⟨rfl, rfl⟩
  | cons n ns ih => intro s; rw [List.foldl_cons, (ih _).1, (ih _).2]; exact testNbr_after eik s n

theorem AInv.step (X : XInput dims g h v pts) {e : ℝ} (he : 0 ≤ e) {goal : Nat} {s t : St XR} (I : AInv X e s)
    (hst : Step (fin e) goal eikS s t) : AInv X e t := by
  obtain ⟨_, rfl⟩ := hst
  unfold next
  split
  · next x rest hs =>
    obtain ⟨hxN, hox, hxn⟩ := I.act x (Or.inr (by rw [hs]; simp))
    have hxp : x ∉ pts := by
      intro hp; rw [(I.src x hp).1] at hxn; cases hxn
    have hos : s.g.occ x = false := by rw [SameMap.occ_eq I.low.map]; exact hox
    have hsh : s.g.shape = Shape.mk' dims := I.low.map.shape.trans X.shape
    unfold visit
    dsimp only
    set g1 := (s.g.setScratch (eikS s.g x).2).setValue x (eikS s.g x).1 with hg1
    have hst1 : ∀ k, g1.state k = s.g.state k := by intro k; simp [hg1]
    have htv1 : ∀ k, k ≠ x → tv g1 k = tv s.g k := by
      intro k hk; unfold tv; simp [hg1, Grid.value_setValue, hk]
    have htvx : tv g1 x = upd (h / v x) (tv s.g x) (mins (Shape.mk' dims) (tv s.g) x) := by
      unfold tv
      rw [show g1.value x = (eikS s.g x).1 by simp [hg1, Grid.value_setValue], X.eik_eq I.low.map I.low.good hxN hox, toT_ofT]
      rfl
    have hL1 : LowG X g1 := I.low.write hxN hos
    have hmask1 : ∀ k, mask g1 k = mask s.g k := by
      intro k
      unfold mask
      rw [hst1]
      by_cases hk : k = x
      · subst hk; rw [if_pos hxn, if_pos hxn]
      · rw [htv1 k hk]
    have hsrc1 : ∀ i ∈ pts, g1.state i = .frozen ∧ tv g1 i = 0 := by
      intro i hi
      have hix : i ≠ x := by rintro rfl; exact hxp hi
      rw [hst1, htv1 i hix]; exact I.src i hi
    have hndx : x ∉ s.before ∧ x ∉ rest ∧ (s.before ++ rest).Nodup := by
      have := I.nodup
      rw [hs] at this
      have hp : (s.before ++ x :: rest).Perm (x :: (s.before ++ rest)) := List.perm_middle
      rw [hp.nodup_iff, List.nodup_cons] at this
      simp only [List.mem_append, not_or] at this
      exact ⟨this.1.1, this.1.2, this.2⟩
    split
    · next hconv =>
      -- converged
      obtain ⟨a, b, ha, hb, hab⟩ := conv_test (I.low.good x) (X.eik_good I.low.map I.low.good hxN hox) hconv
      have hbv : tv g1 x = (b : WithTop ℝ) := by
        unfold tv; rw [show g1.value x = (eikS s.g x).1 by simp [hg1, Grid.value_setValue]]; exact hb
      have M0 : AMid X e x ((Shape.mk' dims).nbrs x) ({ s with g := g1 } : St XR) := by
        refine ⟨hL1, ?_, ?_, I.nodup, hsrc1, by show g1.state x = _; rw [hst1]; exact hxn, ?_, ?_⟩
        · intro i hi; show _ ∧ _ ∧ g1.state i = _; rw [hst1]; exact I.act i hi
        · intro i hi hn; have hn : g1.state i = .narrow := hn; rw [hst1] at hn; exact I.nar i hi hn
        · intro i hi ho hp hs' hit
          show X.Conv (maskx x g1) _ i
          have hs' : g1.state i ≠ .narrow ∨ i = x := hs'
          rw [hst1] at hs'
          by_cases hix : i = x
          · subst hix
            refine Conv.mono X hi (le_refl _) ?_ (fun j _ => tv_le_maskx i g1 j)
              (conv_of_close X hi ho he (T := tv s.g) (T' := tv g1) ha hbv hab htvx ?_)
            · unfold maskx; rw [if_pos rfl]
            · intro j hj
              apply htv1
              rintro rfl
              exact nbrs_irrefl X.fits hi hj
          · have hns : s.g.state i ≠ .narrow := by
              rcases hs' with h | h
              · exact h
              · exact absurd h hix
            refine Conv.mono X hi (le_refl _) ?_ ?_ (I.conv i hi ho hp hns)
            · unfold maskx; rw [if_neg hix, hmask1]
            · intro j hj
              have hjx : j ≠ x := by
                rintro rfl
                exact hit (nbrs_symm X.fits hi hj)
              unfold maskx; rw [if_neg hjx, hmask1]
        · intro i hi ho hp hs' hit
          have hs' : g1.state i ≠ .narrow := hs'
          rw [hst1] at hs'
          show X.Conv (mask g1) _ i
          rw [show mask g1 = mask s.g from funext hmask1]
          exact I.conv i hi ho hp hs'
      have hg1s : g1.shape = Shape.mk' dims := hL1.map.shape.trans X.shape
      have M := AMid.tests X he hxN ((Shape.mk' dims).nbrs x) _ (fun n hn => hn) (nbrs_nodup X.fits hxN) M0
      have haf := testNbrs_after (eikS) ((Shape.mk' dims).nbrs x) ({ s with g := g1 } : St XR)
      rw [hg1s]
      set s2 := ((Shape.mk' dims).nbrs x).foldl (testNbr eikS) ({ s with g := g1 } : St XR) with hs2
      have haf1 : s2.after = x :: rest := haf.1.trans hs
      have hnd2 : x ∉ s2.before ∧ x ∉ rest ∧ (s2.before ++ rest).Nodup := by
        have := M.nodup
        rw [haf1] at this
        have hp : (s2.before ++ x :: rest).Perm (x :: (s2.before ++ rest)) := List.perm_middle
        rw [hp.nodup_iff, List.nodup_cons] at this
        simp only [List.mem_append, not_or] at this
        exact ⟨this.1.1, this.1.2, this.2⟩
      have hst2 : ∀ k, (s2.g.setState x .frozen).state k = if k = x then .frozen else s2.g.state k := by
        intro k; simp [Grid.state_setState]
      have htv2 : ∀ k, tv (s2.g.setState x .frozen) k = tv s2.g k := by intro k; unfold tv; simp
      have hmx : mask (s2.g.setState x .frozen) = maskx x s2.g := by
        funext k
        unfold maskx mask
        rw [hst2, htv2]
        by_cases hk : k = x
        · simp [hk]
        · simp [hk]
      refine ⟨M.low.congr (sameMap_setState _ _ _) (fun _ => by simp), ?_, ?_, hnd2.2.2, ?_, ?_⟩
      · intro i hi
        have hix : i ≠ x := by
          rintro rfl
          rcases hi with hi | hi
          · exact hnd2.1 hi
          · exact hnd2.2.1 hi
        show _ ∧ _ ∧ (s2.g.setState x .frozen).state i = _
        rw [hst2, if_neg hix]
        apply M.act
        rcases hi with hi | hi
        · exact Or.inl hi
        · right; rw [haf1]; exact List.mem_cons_of_mem _ hi
      · intro i hi hn
        have hn : (s2.g.setState x .frozen).state i = .narrow := hn
        rw [hst2] at hn
        by_cases hix : i = x
        · rw [if_pos hix] at hn; cases hn
        · rw [if_neg hix] at hn
          rcases M.nar i hi hn with h | h
          · exact Or.inl h
          · rw [haf1] at h
            rcases List.mem_cons.1 h with h | h
            · exact absurd h hix
            · exact Or.inr h
      · intro i hi
        have hix : i ≠ x := by rintro rfl; exact hxp hi
        show (s2.g.setState x .frozen).state i = _ ∧ tv (s2.g.setState x .frozen) i = 0
        rw [hst2, htv2, if_neg hix]
        exact M.src i hi
      · intro i hi ho hp hs'
        have hs' : (s2.g.setState x .frozen).state i ≠ .narrow := hs'
        show X.Conv (mask (s2.g.setState x .frozen)) _ i
        rw [hmx]
        apply M.conv1 i hi ho hp _ (by simp)
        rw [hst2] at hs'
        by_cases hix : i = x
        · exact Or.inr hix
        · rw [if_neg hix] at hs'; exact Or.inl hs'
    · -- not converged
      refine ⟨hL1, ?_, ?_, ?_, hsrc1, ?_⟩
      · intro i hi
        show _ ∧ _ ∧ g1.state i = _
        rw [hst1]
        apply I.act
        rcases hi with hi | hi
        · simp only [List.mem_append, List.mem_singleton] at hi
          rcases hi with hi | rfl
          · exact Or.inl hi
          · right; rw [hs]; simp
        · right; rw [hs]; exact List.mem_cons_of_mem _ hi
      · intro i hi hn
        have hn : g1.state i = .narrow := hn
        rw [hst1] at hn
        rcases I.nar i hi hn with h | h
        · left; simp [h]
        · rw [hs] at h
          rcases List.mem_cons.1 h with rfl | h
          · left; simp
          · exact Or.inr h
      · exact nodup_insert hndx.2.2 ⟨hndx.1, hndx.2.1⟩
      · intro i hi ho hp hs'
        have hs' : g1.state i ≠ .narrow := hs'
        rw [hst1] at hs'
        show X.Conv (mask g1) _ i
        rw [show mask g1 = mask s.g from funext hmask1]
        exact I.conv i hi ho hp hs'
  · next hs =>
    refine ⟨I.low, ?_, ?_, ?_, I.src, I.conv⟩
    · intro i hi
      apply I.act
      rcases hi with hi | hi
      · simp at hi
      · exact Or.inl hi
    · intro i hi hn
      rcases I.nar i hi hn with h | h
      · exact Or.inr h
      · rw [hs] at h; simp at h
    · have := I.nodup
      rw [hs] at this
      simpa using this

theorem initPts_frozen (pts : List Nat) : ∀ (s : Grid F × List Nat) (k : Nat),
    (pts.foldl initPoint s).1.state k = .frozen → s.1.state k = .frozen ∨ k ∈ pts := by
  induction pts with
  | nil => intro s k h; exact Or.inl h
  | cons p ps ih =>
    intro s k hk
    rw [List.foldl_cons] at hk
    rcases ih _ k hk with h | h
    · rw [(initPoint_spec s p).2.2.1] at h
      by_cases hkp : k = p
      · right; simp [hkp]
      · rw [if_neg hkp] at h
        split at h
        · cases h
        · exact Or.inl h
    · right; simp [h]

theorem AInv.start (X : XInput dims g h v pts) (hna : X.NonAdj) (hfr : Fresh g) {e : ℝ} (he : 0 ≤ e) :
    AInv X e (init g [] pts) := by
  obtain ⟨b1, b2, b3, b4, b5, b6, b7, b8, b9, b10⟩ := initPts_spec pts (g, []) (by simp) (by simp)
  have b11 := initPts_frozen pts (g, [])
  have e1 : (init g [] pts).g = (pts.foldl initPoint (g, [])).1 := rfl
  have e2 : (init g [] pts).before = (pts.foldl initPoint (g, [])).2 := rfl
  have e3 : (init g [] pts).after = [] := rfl
  have hno : ∀ k, g.state k = .opn := hfr.state
  have hlist : ∀ x, x ∈ (init g [] pts).before → x < dims.prod ∧ g.occ x = false ∧ x ∉ pts := by
    intro x hx
    rw [e2] at hx
    rcases b7 x hx with h | ⟨⟨p, hp, h⟩, ho⟩
    · simp at h
    · have h : x ∈ g.shape.nbrs p := h
      rw [X.shape] at h
      have hpN := X.inside p hp
      have hxN := nbr_lt X.fits hpN h
      refine ⟨hxN, ho, ?_⟩
      intro hxp
      exact hna x hxp ho p (nbrs_symm X.fits hpN h) hp
  have hnar : ∀ x, (init g [] pts).g.state x = .narrow → x ∈ (init g [] pts).before := by
    intro x hx
    rw [e1] at hx
    rcases b6 x hx with h | h
    · have h : g.state x = .narrow := h
      rw [hno] at h; cases h
    · exact h
  have hfrz : ∀ x, (init g [] pts).g.state x = .frozen → x ∈ pts := by
    intro x hx
    rw [e1] at hx
    rcases b11 x hx with h | h
    · have h : g.state x = .frozen := h
      rw [hno] at h; cases h
    · exact h
  have hval : ∀ k, tv (init g [] pts).g k = if k ∈ pts then 0 else ⊤ := by
    intro k; unfold tv; rw [init_value, hfr.value]; split <;> rfl
  refine ⟨(XInput.SInv.start X (init_sameMap _ _ _) (fun k => by rw [init_value, hfr.value]; rfl)).lowG, ?_, ?_, ?_, ?_, ?_⟩
  · intro i hi
    rcases hi with hi | hi
    · obtain ⟨c1, c2, c3⟩ := hlist i hi
      refine ⟨c1, c2, ?_⟩
      have h1 := b10 i (by rw [← e2]; exact hi)
      rw [← e1] at h1
      cases hs : (init g [] pts).g.state i with
      | opn => exact absurd hs h1
      | narrow => rfl
      | frozen => exact absurd (hfrz i hs) c3
    · rw [e3] at hi; simp at hi
  · intro i _ hn; exact Or.inl (hnar i hn)
  · rw [e2, e3, List.append_nil]; exact b9
  · intro i hi
    refine ⟨?_, by rw [hval, if_pos hi]⟩
    have h1 := b3 i hi
    rw [← e1] at h1
    cases hs : (init g [] pts).g.state i with
    | opn => exact absurd hs h1
    | narrow => exact absurd hi (hlist i (hnar i hs)).2.2
    | frozen => rfl
  · intro i hi ho hp hs
    have hopn : (init g [] pts).g.state i = .opn := by
      cases hs' : (init g [] pts).g.state i with
      | opn => rfl
      | narrow => exact absurd hs' hs
      | frozen => exact absurd (hfrz i hs') hp
    have hnb : X.NB (mask (init g [] pts).g) i := by
      apply nb_lonely X hi ho
      intro j hj
      unfold mask
      split
      · rfl
      · rw [hval, if_neg]
        intro hjp
        exact b5 i ho ⟨j, hjp, by show i ∈ g.shape.nbrs j; rw [X.shape]; exact nbrs_symm X.fits hi hj⟩ hopn
    exact Conv.mono X hi (by linarith : eps + eps ≤ 2 * eps + e) (le_refl _) (fun _ _ => le_refl _)
      (X.conv_of_not_better hi ho eps_pos.le hnb)

theorem AInv.run (X : XInput dims g h v pts) (hna : X.NonAdj) (hfr : Fresh g) {e : ℝ} (he : 0 ≤ e) {goal n : Nat} {s : St XR}
    (hs : Steps (Step (fin e) goal eikS) n (init g [] pts) s) : AInv X e s :=
  Steps.inv (I := fun s : St XR => AInv X e s) (fun _ _ I hst => I.step X he hst) hs (AInv.start X hna hfr he)

/-- **C10** for FIM (partial: no two initial points are neighbours unless both are in obstacles): initial points keep time 0. -/
theorem _root_.FMV.C10_FIM_partial (X : XInput dims g h v pts) (ha : StartsApart dims g pts) (hfr : Fresh g) (e : ℝ) (he : 0 ≤ e)
    (goal n : Nat) (s : St XR) (hs : Steps (Step (fin e) goal eikS) n (init g [] pts) s) (i : Nat) (hi : i ∈ pts) :
    s.g.value i = fin 0 := by
  have I := AInv.run X (ha.nonAdj X) hfr he hs
  have h1 := (I.src i hi).2
  unfold tv at h1
  rw [← (I.low.good i).ofT_toT, h1]; rfl

theorem stop_false (X : XInput dims g h v pts) {E : XR} {goal : Nat} (hgoal : dims.prod ≤ goal) {n : Nat} {s : St XR}
    (hs : Steps (Step E goal eikS) n (init g [] pts) s) : s.stop = false := by
  have : s.stop = false ∧ LI dims s := by
    refine Steps.inv (I := fun s : St XR => s.stop = false ∧ LI dims s) ?_ hs ⟨rfl, LI.start X.input⟩
    rintro a b ⟨h1, h2⟩ hst
    have P : PrimInv (F := XR) eikS dims.prod (fun _ => True) := ⟨by simp, by simp, by simp⟩
    refine ⟨?_, (step_li X.fits P h2 trivial hst).1⟩
    obtain ⟨_, rfl⟩ := hst
    unfold next
    split
    · next x rest hx =>
      have hxN := (h2.act x (Or.inr (by rw [hx]; simp))).1
      unfold visit
      dsimp only
      split
      · dsimp only
        rw [if_neg (by omega), (testNbrs_after _ _ _).2]
        exact h1
      · exact h1
    · exact h1
  exact this.1

/-- **C29**: when FIM with threshold `e` and without goal has stopped, every cell's time is at least the exact one and exceeds it by at most
`N * (2 * COMP_MARGIN + e)`. -/
theorem _root_.FMV.C29_FIM_accuracy (X : XInput dims g h v pts) (ha : StartsApart dims g pts) (hfr : Fresh g) (e : ℝ) (he : 0 ≤ e)
    (U : Nat → WithTop ℝ) (hU : X.problem.IsSolution U) (goal : Nat) (hgoal : dims.prod ≤ goal) (n : Nat) (s : St XR)
    (hs : Steps (Step (fin e) goal eikS) n (init g [] pts) s) (hdone : Done s) (i : Nat) (hi : i < dims.prod) :
    U i ≤ toT (s.g.value i) ∧ toT (s.g.value i) ≤ U i + ((dims.prod * (2 * eps + e) : ℝ) : WithTop ℝ) := by
  have I := AInv.run X (ha.nonAdj X) hfr he hs
  have hstop := stop_false X hgoal hs
  obtain ⟨h1, h2⟩ := hdone
  have h3 : s.before = [] := by
    rcases h2 with h2 | h2
    · rw [hstop] at h2; cases h2
    · exact h2
  have hnn : ∀ k, k < dims.prod → s.g.state k ≠ .narrow := by
    intro k hk hn
    have := I.nar k hk hn
    unfold Active at this
    rw [h1, h3] at this
    simp at this
  refine ⟨I.low.low U hU i hi, ?_⟩
  refine X.accuracy (T := tv s.g) hU (by linarith [eps_pos]) (fun k hk => le_of_eq (I.src k hk).2) ?_ i hi
  intro k hk ho hp
  refine Conv.mono X hk (le_refl _) ?_ ?_ (I.conv k hk ho hp (hnn k hk))
  · unfold mask; rw [if_neg (hnn k hk)]
  · intro j hj
    unfold mask; rw [if_neg (hnn j (nbr_lt X.fits hk hj))]

/-- **C10 fails for FIM without that hypothesis**: with two adjacent free initial points, the second one does not have time 0 when FIM
stops. -/
theorem _root_.FMV.C10_FIM_refuted_adjacent_starts (a b : Nat) (X : XInput dims g h v [a, b]) (hfr : Fresh g)
    (hob : g.occ b = false) (hadj : AxisAdjacent ((Shape.mk' dims).idx2coord a) ((Shape.mk' dims).idx2coord b))
    (E : XR) (goal n : Nat) (s : St XR) (hs : Steps (Step E goal eikS) n (init g [] [a, b]) s) (hdone : Done s) :
    s.g.value b ≠ fin 0 := by
  have haN := X.inside a (by simp)
  have hbN := X.inside b (by simp)
  have hab : b ∈ (Shape.mk' dims).nbrs a := (axisAdjacent_iff X.fits haN).2 ⟨hbN, hadj⟩
  have hbinit : b ∈ (init g [] [a, b]).before := by
    show b ∈ (initPoint (initPoint (g, []) a) b).2
    rw [(initPoint_spec _ b).2.2.2.1]
    left
    rw [(initPoint_spec _ a).2.2.2.1]
    right
    refine ⟨?_, by show b ∈ g.shape.nbrs a; rw [X.shape]; exact hab, hfr.state b, hob⟩
    rintro rfl
    exact nbrs_irrefl X.fits haN hab
  -- positivity of everything the local solver returns
  have hpos : ∀ g', LowG X g' → ∀ k, k < dims.prod → g'.occ k = false → 0 < toT (eikS g' k).1 := by
    intro g' I k hk ho
    have ho' : g.occ k = false := by rw [← SameMap.occ_eq I.map]; exact ho
    rw [X.eik_eq I.map I.good hk ho', toT_ofT]
    exact XInput.upd_pos (X.cpos hk ho') (XInput.mins_nn (fun k => (I.good k).toT_nonneg) k)
  have P : PrimInv (F := XR) eikS dims.prod (fun g' => LowG X g' ∧ 0 < tv g' b) := by
    refine ⟨?_, ?_, ?_⟩
    · rintro g' k ⟨I, hb⟩ hk ho; exact ⟨(LowG.prim X).scr g' k I hk ho, hb⟩
    · rintro g' k ⟨I, hb⟩ hk ho
      refine ⟨(LowG.prim X).write g' k I hk ho, ?_⟩
      unfold tv
      rw [Grid.value_setValue]; split
      · next e => subst e; exact hpos g' I b hk ho
      · exact hb
    · rintro g' k st ⟨I, hb⟩
      exact ⟨(LowG.prim X).state g' k st I, by unfold tv; rw [Grid.value_setState]; exact hb⟩
  have P0 := LowG.prim X
  have key : LI dims s ∧ LowG X s.g ∧ (0 < tv s.g b ∨ b ∈ s.after ∨ s = init g [] [a, b]) := by
    refine Steps.inv (I := fun s : St XR => LI dims s ∧ LowG X s.g ∧ (0 < tv s.g b ∨ b ∈ s.after ∨ s = init g [] [a, b])) ?_ hs
      ⟨LI.start X.input, (low X hfr (.refl (step := Step E goal eikS) _)).2, Or.inr (Or.inr rfl)⟩
    rintro s t ⟨h1, h2, h3⟩ hst
    have c1 := step_li X.fits P0 h1 h2 hst
    refine ⟨c1.1, c1.2.1, ?_⟩
    rcases h3 with h3 | h3 | h3
    · exact Or.inl (step_li X.fits P h1 ⟨h2, h3⟩ hst).2.1.2
    · cases ha : s.after with
      | nil => rw [ha] at h3; simp at h3
      | cons x rest =>
        obtain ⟨_, rfl⟩ := hst
        have hx := h1.act x (Or.inr (by rw [ha]; simp))
        have e : next E goal eikS s = visit E goal eikS s x rest := by unfold next; rw [ha]
        rw [e]
        by_cases hxb : x = b
        · subst hxb
          left
          unfold visit
          dsimp only
          have hw := P0.write _ _ h2 hx.1 hx.2
          have hp1 : 0 < tv ((s.g.setScratch (eikS s.g x).2).setValue x (eikS s.g x).1) x := by
            unfold tv; rw [Grid.value_setValue, if_pos rfl]; exact hpos _ h2 x hx.1 hx.2
          split
          · set s1 : St XR := { s with g := (s.g.setScratch (eikS s.g x).2).setValue x (eikS s.g x).1 } with hs1
            have I1 : LI dims s1 := by
              have hm : SameMap s.g s1.g := (sameMap_setScratch _ _).trans (sameMap_setValue _ _ _)
              exact ⟨hm.shape.trans h1.shape, fun y hy => by rw [SameMap.occ_eq hm]; exact h1.act y hy⟩
            have hnb : ∀ n ∈ s1.g.shape.nbrs x, n < dims.prod := by
              intro n hn; rw [I1.shape] at hn; exact nbr_lt X.fits hx.1 hn
            have := (testNbrs_li P (s1.g.shape.nbrs x) s1 I1 ⟨hw, hp1⟩ hnb).2.1.2
            show 0 < tv (Grid.setState _ x .frozen) x
            unfold tv at this ⊢
            rw [Grid.value_setState]; exact this
          · exact hp1
        · right; left
          rw [ha] at h3
          have h4 : b ∈ rest := by
            rcases List.mem_cons.1 h3 with h | h
            · exact absurd h.symm hxb
            · exact h
          unfold visit
          dsimp only
          split <;> exact h4
    · right; left
      obtain ⟨_, rfl⟩ := hst
      subst h3
      have e : (init g [] [a, b]).after = [] := rfl
      unfold next
      rw [e]
      exact hbinit
  rcases key.2.2 with h1 | h1 | h1
  · intro h0
    unfold tv at h1
    rw [h0] at h1
    exact lt_irrefl _ (show (0 : WithTop ℝ) < 0 from h1)
  · rw [hdone.1] at h1; simp at h1
  · exfalso
    rw [h1] at hdone
    rcases hdone.2 with h | h
    · cases h
    · rw [h] at hbinit; simp at hbinit

end exact
end FIM
end FMV
