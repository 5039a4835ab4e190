import Verif.Model.GMM
import Verif.Lemmas.Prim
/-!
# GMM: C10, C11, C18, C20, C49
-/
set_option linter.unusedSectionVars false
set_option linter.unusedVariables false
namespace FMV
open Spec Shape XR FMM
variable {F : Type} [Arith F]
namespace GMM

theorem lower_prim {eik : Eik F} {N : Nat} {J : Grid F → Prop} (P : PrimInv eik N J) {g : Grid F} {j : Nat} (hJ : J g) (hj : j < N)
    (ho : g.occ j = false) : J (lower eik g j) := by
  unfold lower
  dsimp only
  split
  · exact P.write g j hJ hj ho
  · exact P.scr g j hJ hj ho

theorem lower_sameMap (eik : Eik F) (g : Grid F) (j : Nat) : SameMap g (lower eik g j) := by
  unfold lower
  dsimp only
  split
  · exact (sameMap_setScratch _ _).trans (sameMap_setValue _ _ _)
  · exact sameMap_setScratch _ _

@[simp] theorem lower_state (eik : Eik F) (g : Grid F) (j k : Nat) : (lower eik g j).state k = g.state k := by
  unfold lower
  dsimp only
  split <;> simp

theorem lower_value_ne (eik : Eik F) (g : Grid F) {j k : Nat} (h : k ≠ j) : (lower eik g j).value k = g.value k := by
  unfold lower
  dsimp only
  split
  · rw [Grid.value_setValue, if_neg h]; rfl
  · rfl

/-- the first pass: map, states and skipped cells are untouched -/
structure P1 (eik : Eik F) (N : Nat) (g g' : Grid F) : Prop where
  map : SameMap g g'
  state : ∀ k, g'.state k = g.state k
  prim : ∀ J : Grid F → Prop, PrimInv eik N J → J g → J g'
  frozen : ∀ k, g.state k = .frozen → g'.value k = g.value k

theorem P1.refl (eik : Eik F) (N : Nat) (g : Grid F) : P1 eik N g g := ⟨SameMap.refl _, fun _ => rfl, fun _ _ h => h, fun _ _ => rfl⟩
theorem P1.trans {eik : Eik F} {N : Nat} {a b c : Grid F} (h1 : P1 eik N a b) (h2 : P1 eik N b c) : P1 eik N a c :=
  ⟨h1.map.trans h2.map, fun k => (h2.state k).trans (h1.state k), fun J P h => h2.prim J P (h1.prim J P h),
    fun k hk => (h2.frozen k (by rw [h1.state]; exact hk)).trans (h1.frozen k hk)⟩

theorem skip_iff {g : Grid F} {j : Nat} : ¬ Skip g j ↔ g.state j ≠ .frozen ∧ g.occ j = false ∧ Arith.eq (g.vel j) Arith.zero = false := by
  unfold Skip
  simp [not_or]

theorem relax1_p1 (eik : Eik F) {N : Nat} (g : Grid F) {j : Nat} (hj : j < N) : P1 eik N g (relax1 eik g j) := by
  unfold relax1
  split
  · exact P1.refl _ _ _
  · next hs =>
    rw [skip_iff] at hs
    refine ⟨lower_sameMap _ _ _, lower_state _ _ _, fun J P h => lower_prim P h hj hs.2.1, ?_⟩
    intro k hk
    apply lower_value_ne
    rintro rfl
    exact hs.1 hk

theorem relax1s_p1 (eik : Eik F) {N : Nat} : ∀ (ns : List Nat) (g : Grid F), (∀ j ∈ ns, j < N) → P1 eik N g (ns.foldl (relax1 eik) g) := by
  intro ns
  induction ns with
  | nil => intro g _; exact P1.refl _ _ _
  | cons j js ih => intro g hj; exact (relax1_p1 eik g (hj j (by simp))).trans (ih _ (fun k hk => hj k (by simp [hk])))

theorem pass1_p1 (eik : Eik F) {dims : List Nat} (hf : Fits dims (2^31+1)) (tm : F) (gamma : List Nat) (g : Grid F)
    (hs : g.shape = Shape.mk' dims) (hg : ∀ x ∈ gamma, x < dims.prod) : P1 eik dims.prod g (pass1 eik tm gamma g) := by
  unfold pass1
  have : ∀ (l : List Nat) (g' : Grid F), (∀ x ∈ l, x < dims.prod) → g'.shape = Shape.mk' dims → P1 eik dims.prod g'
      (l.foldl (fun g x => if Arith.le (g.value x) tm then (g.shape.nbrs x).foldl (relax1 eik) g else g) g') := by
    intro l
    induction l with
    | nil => intro g' _ _; exact P1.refl _ _ _
    | cons x xs ih =>
      intro g' h1 h2
      rw [List.foldl_cons]
      have step : P1 eik dims.prod g' (if Arith.le (g'.value x) tm then (g'.shape.nbrs x).foldl (relax1 eik) g' else g') := by
        split
        · apply relax1s_p1
          intro j hj
          rw [h2] at hj
          exact nbr_lt hf (h1 x (by simp)) hj
        · exact P1.refl _ _ _
      exact step.trans (ih _ (fun y hy => h1 y (by simp [hy])) (step.map.shape.trans h2))
  exact this _ g (fun x hx => hg x (by simpa using hx)) hs

/-- what the second pass does to one neighbour -/
theorem relax2_spec (eik : Eik F) {N : Nat} (s : St F) {j : Nat} (hj : j < N) :
    SameMap s.g (relax2 eik s j).g ∧ (∀ J : Grid F → Prop, PrimInv eik N J → J s.g → J (relax2 eik s j).g) ∧
    (∀ k, s.g.state k = .frozen → (relax2 eik s j).g.value k = s.g.value k) ∧
    (∀ k, (relax2 eik s j).g.state k = if k = j ∧ ¬ Skip s.g j ∧ s.g.state j = .opn then .narrow else s.g.state k) ∧
    (∀ x, x ∈ (relax2 eik s j).app ↔ x ∈ s.app ∨ (x = j ∧ ¬ Skip s.g j ∧ s.g.state j = .opn)) ∧
    (relax2 eik s j).kept = s.kept ∧ (relax2 eik s j).rest = s.rest ∧ (relax2 eik s j).tm = s.tm ∧ (relax2 eik s j).stop = s.stop := by
  unfold relax2
  split
  · next h => exact ⟨SameMap.refl _, fun _ _ h => h, fun _ _ => rfl, by simp [h], by simp [h], rfl, rfl, rfl, rfl⟩
  · next h =>
    have hs := skip_iff.1 h
    dsimp only
    rw [lower_state]
    split
    · next ho =>
      refine ⟨(lower_sameMap _ _ _).trans (sameMap_setState _ _ _), fun J P hJ => P.state _ _ _ (lower_prim P hJ hj hs.2.1), ?_, ?_, ?_,
        rfl, rfl, rfl, rfl⟩
      · intro k hk
        rw [Grid.value_setState]
        apply lower_value_ne
        rintro rfl
        exact hs.1 hk
      · intro k; rw [Grid.state_setState, lower_state]; simp [h, ho]
      · intro x; simp [h, ho]
    · next ho =>
      refine ⟨lower_sameMap _ _ _, fun J P hJ => lower_prim P hJ hj hs.2.1, ?_, ?_, ?_, rfl, rfl, rfl, rfl⟩
      · intro k hk
        apply lower_value_ne
        rintro rfl
        exact hs.1 hk
      · intro k; simp [ho]
      · intro x; simp [ho]

/-- what the second pass does to a list of neighbours -/
theorem relax2s_spec (eik : Eik F) {N : Nat} : ∀ (ns : List Nat) (s : St F), (∀ j ∈ ns, j < N) →
    SameMap s.g (ns.foldl (relax2 eik) s).g ∧ (∀ J : Grid F → Prop, PrimInv eik N J → J s.g → J (ns.foldl (relax2 eik) s).g) ∧
    (∀ k, s.g.state k = .frozen → (ns.foldl (relax2 eik) s).g.value k = s.g.value k) ∧
    (∀ k, (ns.foldl (relax2 eik) s).g.state k = if k ∈ ns ∧ ¬ Skip s.g k ∧ s.g.state k = .opn then .narrow else s.g.state k) ∧
    (∀ x, x ∈ (ns.foldl (relax2 eik) s).app ↔ x ∈ s.app ∨ (x ∈ ns ∧ ¬ Skip s.g x ∧ s.g.state x = .opn)) ∧
    (ns.foldl (relax2 eik) s).kept = s.kept ∧ (ns.foldl (relax2 eik) s).rest = s.rest ∧ (ns.foldl (relax2 eik) s).tm = s.tm ∧
    (ns.foldl (relax2 eik) s).stop = s.stop := by
  intro ns
  induction ns with
  | nil => intro s _; exact ⟨SameMap.refl _, fun _ _ h => h, fun _ _ => rfl, by simp, by simp, rfl, rfl, rfl, rfl⟩
  | cons j js ih =>
    intro s hN
    obtain ⟨a1, a2, a3, a4, a5, a6, a7, a8, a9⟩ := relax2_spec eik s (hN j (by simp))
    obtain ⟨b1, b2, b3, b4, b5, b6, b7, b8, b9⟩ := ih (relax2 eik s j) (fun k hk => hN k (by simp [hk]))
    rw [List.foldl_cons]
    have hskip : ∀ k, Skip (relax2 eik s j).g k ↔ Skip s.g k := by
      intro k
      unfold Skip
      rw [SameMap.occ_eq a1, SameMap.vel_eq a1, a4]
      split
      · next h => rw [h.1]; simp [h.2.2]
      · rfl
    have hfr : ∀ k, s.g.state k = .frozen → (relax2 eik s j).g.state k = .frozen := by
      intro k hk
      rw [a4, if_neg]
      · exact hk
      · rintro ⟨rfl, _, h⟩; rw [hk] at h; cases h
    refine ⟨a1.trans b1, fun J P h => b2 J P (a2 J P h), fun k hk => (b3 k (hfr k hk)).trans (a3 k hk), ?_, ?_,
      b6.trans a6, b7.trans a7, b8.trans a8, b9.trans a9⟩
    · intro k
      simp only [b4, hskip, a4]
      by_cases h1 : k = j
      · subst h1
        by_cases h2 : ¬ Skip s.g k ∧ s.g.state k = .opn
        · simp [h2]
        · have h2' : ¬ (True ∧ ¬ Skip s.g k ∧ s.g.state k = .opn) := by simpa using h2
          by_cases h3 : k ∈ js
          · simp only [h2', if_false, h3, List.mem_cons, true_or, or_true]
          · simp only [h2', if_false, h3, List.mem_cons, true_or, false_and]
      · simp [h1]
    · intro x
      rw [b5, hskip, a5, a4]
      by_cases h1 : x = j
      · subst h1
        by_cases h2 : ¬ Skip s.g x ∧ s.g.state x = .opn
        · simp [h2]
        · have h2' : ¬ (True ∧ ¬ Skip s.g x ∧ s.g.state x = .opn) := by simpa using h2
          simp only [h2', if_false, or_false, List.mem_cons, true_or]
          simp [h2]
      · simp [h1]

/-! ### initialisation -/

theorem initNbr_spec (eik : Eik F) {N : Nat} (s : Grid F × List Nat × F) {j : Nat} (hj : j < N) :
    SameMap s.1 (initNbr eik s j).1 ∧ (∀ J : Grid F → Prop, PrimInv eik N J → J s.1 → J (initNbr eik s j).1) ∧
    (∀ k, s.1.state k = .frozen → (initNbr eik s j).1.value k = s.1.value k) ∧
    (∀ k, (initNbr eik s j).1.state k = if k = j ∧ s.1.state k ≠ .frozen ∧ s.1.occ k = false then .narrow else s.1.state k) ∧
    (∀ x, x ∈ (initNbr eik s j).2.1 ↔ x ∈ s.2.1 ∨ (x = j ∧ s.1.state x ≠ .frozen ∧ s.1.occ x = false)) := by
  unfold initNbr
  split
  · next h =>
    have h' : ¬ (s.1.state j ≠ .frozen ∧ s.1.occ j = false) := by
      rintro ⟨h1, h2⟩
      rcases h with h | h
      · exact h1 h
      · rw [h2] at h; cases h
    refine ⟨SameMap.refl _, fun _ _ h => h, fun _ _ => rfl, ?_, ?_⟩
    · intro k
      by_cases hk : k = j
      · subst hk; simp [h']
      · simp [hk]
    · intro x
      by_cases hk : x = j
      · subst hk; simp [h']
      · simp [hk]
  · next h =>
    have hf : s.1.state j ≠ .frozen := fun e => h (Or.inl e)
    have ho : s.1.occ j = false := by
      cases e : s.1.occ j with
      | false => rfl
      | true => exact absurd (Or.inr e) h
    refine ⟨((sameMap_setScratch _ _).trans (sameMap_setValue _ _ _)).trans (sameMap_setState _ _ _),
      fun J P hJ => P.state _ _ _ (P.write _ _ hJ hj ho), ?_, ?_, ?_⟩
    · intro k hk
      have hkj : k ≠ j := by rintro rfl; exact hf hk
      simp [Grid.value_setValue, hkj]
    · intro k
      by_cases hk : k = j
      · subst hk; simp [Grid.state_setState, hf, ho]
      · simp [Grid.state_setState, hk]
    · intro x
      by_cases hk : x = j
      · subst hk; simp [hf, ho]
      · simp [hk]

/-- invariant of the initialisation, relative to the list `done` of points already treated -/
structure IInv (dims : List Nat) (eik : Eik F) (g : Grid F) (pts done : List Nat) (s : Grid F × List Nat × F) : Prop where
  map : SameMap g s.1
  gin : ∀ x ∈ s.2.1, ∃ p ∈ pts, x ∈ (Shape.mk' dims).nbrs p ∧ g.occ x = false
  zero : ∀ p ∈ done, s.1.state p = .frozen ∧ s.1.value p = Arith.zero
  frz : ∀ k, s.1.state k = .frozen → k ∈ done
  nar : ∀ k, s.1.state k = .narrow → k ∈ s.2.1
  gst : ∀ x ∈ s.2.1, s.1.state x ≠ .opn
  closed : ∀ p ∈ done, ∀ j ∈ (Shape.mk' dims).nbrs p, g.occ j = false → s.1.state j ≠ .opn
  prim : ∀ J : Grid F → Prop, PrimInv eik dims.prod J → (∀ g' p, p ∈ pts → J g' → J (g'.setValue p Arith.zero)) → J g → J s.1

theorem initNbrs_inv {dims : List Nat} (hf : Fits dims (2^31+1)) (eik : Eik F) {g : Grid F} {pts done : List Nat} {p : Nat}
    (hp : p ∈ pts) (hpN : p < dims.prod) : ∀ (ns : List Nat) (s : Grid F × List Nat × F), (∀ j ∈ ns, j ∈ (Shape.mk' dims).nbrs p) →
    p ∈ done →
    ((SameMap g s.1 ∧ (∀ x ∈ s.2.1, ∃ p ∈ pts, x ∈ (Shape.mk' dims).nbrs p ∧ g.occ x = false) ∧
      (∀ p ∈ done, s.1.state p = .frozen ∧ s.1.value p = Arith.zero) ∧ (∀ k, s.1.state k = .frozen → k ∈ done) ∧
      (∀ k, s.1.state k = .narrow → k ∈ s.2.1) ∧ (∀ x ∈ s.2.1, s.1.state x ≠ .opn))) →
    ((SameMap g (ns.foldl (initNbr eik) s).1 ∧ (∀ x ∈ (ns.foldl (initNbr eik) s).2.1, ∃ p ∈ pts, x ∈ (Shape.mk' dims).nbrs p ∧ g.occ x = false) ∧
      (∀ p ∈ done, (ns.foldl (initNbr eik) s).1.state p = .frozen ∧ (ns.foldl (initNbr eik) s).1.value p = Arith.zero) ∧
      (∀ k, (ns.foldl (initNbr eik) s).1.state k = .frozen → k ∈ done) ∧
      (∀ k, (ns.foldl (initNbr eik) s).1.state k = .narrow → k ∈ (ns.foldl (initNbr eik) s).2.1) ∧
      (∀ x ∈ (ns.foldl (initNbr eik) s).2.1, (ns.foldl (initNbr eik) s).1.state x ≠ .opn))) ∧
    (∀ k, s.1.state k ≠ .opn → (ns.foldl (initNbr eik) s).1.state k ≠ .opn) ∧
    (∀ j ∈ ns, g.occ j = false → (ns.foldl (initNbr eik) s).1.state j ≠ .opn) ∧
    (∀ J : Grid F → Prop, PrimInv eik dims.prod J → J s.1 → J (ns.foldl (initNbr eik) s).1) := by
  intro ns
  induction ns with
  | nil => intro s _ _ h; exact ⟨h, fun _ h => h, by simp, fun _ _ h => h⟩
  | cons j js ih =>
    intro s hns hpd ⟨h1, h2, h3, h4, h5, h6⟩
    rw [List.foldl_cons]
    have hjn := hns j (by simp)
    have hjN := nbr_lt hf hpN hjn
    obtain ⟨a1, a2, a3, a4, a5⟩ := initNbr_spec eik s hjN
    have hocc : s.1.occ j = g.occ j := SameMap.occ_eq h1 j
    have hstate : ∀ k, (initNbr eik s j).1.state k = .frozen ↔ s.1.state k = .frozen := by
      intro k; rw [a4]; split
      · next h => simp [h.2.1]
      · rfl
    have key := ih (initNbr eik s j) (fun k hk => hns k (by simp [hk])) hpd
      ⟨h1.trans a1, ?_, ?_, ?_, ?_, ?_⟩
    · obtain ⟨c1, c2, c3, c4⟩ := key
      refine ⟨c1, ?_, ?_, fun J P h => c4 J P (a2 J P h)⟩
      · intro k hk
        apply c2
        rw [a4]; split
        · simp
        · exact hk
      · intro k hk ho
        rcases List.mem_cons.1 hk with rfl | hk
        · apply c2
          rw [a4]
          by_cases hfz : s.1.state k = .frozen
          · rw [if_neg (by simp [hfz]), hfz]; simp
          · rw [if_pos ⟨rfl, hfz, by rw [hocc]; exact ho⟩]; simp
        · exact c3 k hk ho
    · intro x hx
      rcases (a5 x).1 hx with hx | ⟨rfl, _, ho⟩
      · exact h2 x hx
      · exact ⟨p, hp, hjn, by rw [← hocc]; exact ho⟩
    · intro q hq
      exact ⟨(hstate q).2 (h3 q hq).1, by rw [a3 q (h3 q hq).1]; exact (h3 q hq).2⟩
    · intro k hk; exact h4 k ((hstate k).1 hk)
    · intro k hk
      rw [a4] at hk
      rw [a5]
      split at hk
      · next h => exact Or.inr h
      · exact Or.inl (h5 k hk)
    · intro x hx
      rw [a4]
      split
      · simp
      · next hn =>
        rcases (a5 x).1 hx with hx | hx
        · exact h6 x hx
        · exact absurd hx hn

theorem initPts_inv {dims : List Nat} (hf : Fits dims (2^31+1)) (eik : Eik F) {g : Grid F} {pts : List Nat} (hin : Input dims g pts) :
    ∀ (ps done : List Nat) (s : Grid F × List Nat × F), (∀ p ∈ ps, p ∈ pts) → IInv dims eik g pts done s →
    IInv dims eik g pts (done ++ ps) (ps.foldl (initPoint eik) s) := by
  intro ps
  induction ps with
  | nil => intro done s _ h; simpa using h
  | cons p ps ih =>
    intro done s hps I
    rw [List.foldl_cons]
    have hp := hps p (by simp)
    have hpN := hin.inside p hp
    have hsh : s.1.shape = Shape.mk' dims := I.map.shape.trans hin.shape
    have e : initPoint eik s p = ((Shape.mk' dims).nbrs p).foldl (initNbr eik) ((s.1.setValue p Arith.zero).setState p .frozen, s.2) := by
      unfold initPoint; rw [hsh]
    have key := initNbrs_inv hf eik (g := g) (done := done ++ [p]) hp hpN ((Shape.mk' dims).nbrs p)
      ((s.1.setValue p Arith.zero).setState p .frozen, s.2) (fun j hj => hj) (by simp) ⟨?_, ?_, ?_, ?_, ?_, ?_⟩
    · rw [← e] at key
      obtain ⟨⟨c1, c2, c3, c4, c5, c6⟩, d1, d2, d3⟩ := key
      have := ih (done ++ [p]) (initPoint eik s p) (fun q hq => hps q (by simp [hq])) ⟨c1, c2, c3, c4, c5, c6, ?_, ?_⟩
      · simpa using this
      · intro q hq j hj ho
        rcases List.mem_append.1 hq with hq | hq
        · apply d1
          show Grid.state (Grid.setState _ _ _) _ ≠ _
          rw [Grid.state_setState]; split
          · simp
          · rw [Grid.state_setValue]; exact I.closed q hq j hj ho
        · have : q = p := by simpa using hq
          subst this
          exact d2 j hj ho
      · intro J P hz hJ
        exact d3 J P (P.state _ _ _ (hz _ p hp (I.prim J P hz hJ)))
    · exact (I.map.trans (sameMap_setValue _ _ _)).trans (sameMap_setState _ _ _)
    · exact I.gin
    · intro q hq
      simp only [Grid.state_setState, Grid.state_setValue, Grid.value_setState, Grid.value_setValue]
      by_cases hqp : q = p
      · simp [hqp]
      · rw [if_neg hqp, if_neg hqp]
        rcases List.mem_append.1 hq with hq | hq
        · exact I.zero q hq
        · exact absurd (by simpa using hq) hqp
    · intro k hk
      simp only [Grid.state_setState, Grid.state_setValue] at hk
      by_cases hkp : k = p
      · simp [hkp]
      · rw [if_neg hkp] at hk
        exact List.mem_append.2 (Or.inl (I.frz k hk))
    · intro k hk
      simp only [Grid.state_setState, Grid.state_setValue] at hk
      by_cases hkp : k = p
      · rw [if_pos hkp] at hk; cases hk
      · rw [if_neg hkp] at hk
        exact I.nar k hk
    · intro x hx
      simp only [Grid.state_setState, Grid.state_setValue]
      split
      · simp
      · exact I.gst x hx

theorem init_inv (eik : Eik F) {dims : List Nat} {g : Grid F} {pts : List Nat} (hin : Input dims g pts)
    (hopen : ∀ i, g.state i = .opn) : IInv dims eik g pts pts (pts.foldl (initPoint eik) (g, [], Arith.inf)) := by
  have := initPts_inv hin.fits eik hin pts [] (g, [], Arith.inf) (fun p hp => hp)
    ⟨SameMap.refl _, by simp, by simp, (fun k hk => by
      have hk : g.state k = .frozen := hk
      rw [hopen] at hk; cases hk), (fun k hk => by
      have hk : g.state k = .narrow := hk
      rw [hopen] at hk; cases hk), by simp, by simp, (fun _ _ _ h => h)⟩
  simpa using this

/-! ### the invariant of the main loop -/

/-- velocities that compare equal to 0 belong to occupied cells (true for doubles: `0 < COMP_MARGIN`) -/
def ZeroOcc (g : Grid F) : Prop := ∀ j, Arith.eq (g.vel j) Arith.zero = true → g.occ j = true

structure GInv (dims : List Nat) (eik : Eik F) (g : Grid F) (pts : List Nat) (s : St F) : Prop where
  map : SameMap g s.g
  sound : ∀ x ∈ s.gamma, reach dims g pts x ∧ g.occ x = false
  sound_frozen : ∀ i, s.g.state i = .frozen → reach dims g pts i
  zero : ∀ p ∈ pts, s.g.state p = .frozen ∧ s.g.value p = Arith.zero
  nar : ∀ k, s.g.state k = .narrow → k ∈ s.gamma
  gst : ∀ x ∈ s.gamma, s.g.state x ≠ .opn
  closed : ZeroOcc g → ∀ i, s.g.state i = .frozen → ∀ j ∈ (Shape.mk' dims).nbrs i, g.occ j = false → s.g.state j ≠ .opn

theorem mem_gamma {s : St F} {x : Nat} : x ∈ s.gamma ↔ x ∈ s.kept ∨ x ∈ s.rest ∨ x ∈ s.app := by
  unfold St.gamma; simp [or_assoc]

theorem GInv.start (eik : Eik F) {dims : List Nat} {g : Grid F} {pts : List Nat} (hin : Input dims g pts)
    (hopen : ∀ i, g.state i = .opn) : GInv dims eik g pts (init eik g [] pts) := by
  have I := init_inv eik hin hopen
  have hgam : (init eik g [] pts).gamma = (pts.foldl (initPoint eik) (g, [], Arith.inf)).2.1 := by
    unfold init St.gamma; simp
  refine ⟨I.map, ?_, ?_, I.zero, ?_, ?_, ?_⟩
  · intro x hx
    rw [hgam] at hx
    obtain ⟨p, hp, hx, ho⟩ := I.gin x hx
    have := (axisAdjacent_iff hin.fits (hin.inside p hp)).1 hx
    exact ⟨.move (.start hp (hin.inside p hp)) this.1 ho this.2, ho⟩
  · intro i hi
    have := I.frz i hi
    exact .start this (hin.inside i this)
  · intro k hk; rw [hgam]; exact I.nar k hk
  · intro k hk; rw [hgam] at hk; exact I.gst k hk
  · intro _ i hi j hj ho
    exact I.closed i (I.frz i hi) j hj ho

theorem GInv.step {eik : Eik F} {dims : List Nat} {g : Grid F} {pts : List Nat} (hin : Input dims g pts) {dt : F} {goal : Nat}
    {s t : St F} (I : GInv dims eik g pts s) (hst : Step dt goal eik s t) :
    GInv dims eik g pts t ∧ (∀ J : Grid F → Prop, PrimInv eik dims.prod J → J s.g → J t.g) ∧
      (∀ k, s.g.state k = .frozen → t.g.state k = .frozen ∧ t.g.value k = s.g.value k) := by
  have hlt : ∀ x ∈ s.gamma, x < dims.prod := fun x hx => reach_lt (I.sound x hx).1
  have hsh : s.g.shape = Shape.mk' dims := I.map.shape.trans hin.shape
  obtain ⟨_, rfl⟩ := hst
  unfold next
  split
  · next x rest hr =>
    have hxg : x ∈ s.gamma := by rw [mem_gamma, hr]; simp
    have hxr := (I.sound x hxg).1
    unfold visit
    split
    · dsimp only
      rw [hsh]
      have hN : ∀ j ∈ (Shape.mk' dims).nbrs x, j < dims.prod := fun j hj => nbr_lt hin.fits (hlt x hxg) hj
      obtain ⟨b1, b2, b3, b4, b5, b6, b7, b8, b9⟩ := relax2s_spec eik ((Shape.mk' dims).nbrs x) s hN
      set s1 := ((Shape.mk' dims).nbrs x).foldl (relax2 eik) s with hs1
      have hfr : ∀ k, s1.g.state k = .frozen ↔ s.g.state k = .frozen := by
        intro k; rw [b4]; split
        · next h => simp [h.2.2]
        · rfl
      have hnop : ∀ k, s.g.state k ≠ .opn → s1.g.state k ≠ .opn := by
        intro k hk; rw [b4]; split
        · simp
        · exact hk
      have hstt : ∀ k, (s1.g.setState x .frozen).state k = if k = x then .frozen else s1.g.state k := fun k => Grid.state_setState _ _ _ _
      have hgam : ∀ y, y ∈ s1.kept ∨ y ∈ rest ∨ y ∈ s1.app →
          y ∈ s.gamma ∨ (y ∈ (Shape.mk' dims).nbrs x ∧ ¬ Skip s.g y ∧ s.g.state y = .opn) := by
        rintro y (h | h | h)
        · rw [b6] at h; left; rw [mem_gamma]; exact Or.inl h
        · left; rw [mem_gamma, hr]; simp [h]
        · rcases (b5 y).1 h with h | h
          · left; rw [mem_gamma]; exact Or.inr (Or.inr h)
          · exact Or.inr h
      refine ⟨⟨(I.map.trans b1).trans (sameMap_setState _ _ _), ?_, ?_, ?_, ?_, ?_, ?_⟩, fun J P h => P.state _ _ _ (b2 J P h), ?_⟩
      · intro y hy
        rw [mem_gamma] at hy
        rcases hgam y hy with h | ⟨h1, h2, h3⟩
        · exact I.sound y h
        · have := (axisAdjacent_iff hin.fits (hlt x hxg)).1 h1
          have ho : g.occ y = false := by rw [← SameMap.occ_eq I.map]; exact (skip_iff.1 h2).2.1
          exact ⟨.move hxr this.1 ho this.2, ho⟩
      · intro i hi
        have hi : (s1.g.setState x .frozen).state i = .frozen := hi
        rw [hstt] at hi
        by_cases hix : i = x
        · rw [hix]; exact hxr
        · rw [if_neg hix] at hi; exact I.sound_frozen i ((hfr i).1 hi)
      · intro p hp
        show (s1.g.setState x .frozen).state p = _ ∧ (s1.g.setState x .frozen).value p = _
        rw [hstt, Grid.value_setState, b3 p (I.zero p hp).1]
        refine ⟨?_, (I.zero p hp).2⟩
        split
        · rfl
        · exact (hfr p).2 (I.zero p hp).1
      · intro k hk
        have hk : (s1.g.setState x .frozen).state k = .narrow := hk
        rw [hstt] at hk
        by_cases hkx : k = x
        · rw [if_pos hkx] at hk; cases hk
        · rw [if_neg hkx, b4] at hk
          rw [mem_gamma]
          split at hk
          · next h => right; right; exact (b5 k).2 (Or.inr h)
          · have := I.nar k hk
            rw [mem_gamma, hr] at this
            rcases this with h | h | h
            · left; rw [b6]; exact h
            · rcases List.mem_cons.1 h with h | h
              · exact absurd h hkx
              · exact Or.inr (Or.inl h)
            · right; right; exact (b5 k).2 (Or.inl h)
      · intro y hy
        show (s1.g.setState x .frozen).state y ≠ _
        rw [hstt]
        split
        · simp
        · rw [mem_gamma] at hy
          rcases hgam y hy with h | h
          · exact hnop y (I.gst y h)
          · rw [b4, if_pos h]; simp
      · intro hz i hi j hj ho
        have hi : (s1.g.setState x .frozen).state i = .frozen := hi
        show (s1.g.setState x .frozen).state j ≠ _
        rw [hstt] at hi ⊢
        split
        · simp
        · by_cases hix : i = x
          · subst hix
            rw [b4]
            split
            · simp
            · next hn =>
              intro hop
              apply hn
              refine ⟨hj, ?_, hop⟩
              rw [skip_iff]
              refine ⟨by rw [hop]; simp, by rw [SameMap.occ_eq I.map]; exact ho, ?_⟩
              rw [SameMap.vel_eq I.map]
              cases hv : Arith.eq (g.vel j) Arith.zero with
              | false => rfl
              | true => have := hz j hv; rw [ho] at this; cases this
          · rw [if_neg hix] at hi
            exact hnop j (I.closed hz i ((hfr i).1 hi) j hj ho)
      · intro k hk
        show (s1.g.setState x .frozen).state k = _ ∧ (s1.g.setState x .frozen).value k = _
        rw [hstt, Grid.value_setState, b3 k hk]
        refine ⟨?_, rfl⟩
        split
        · rfl
        · exact (hfr k).2 hk
    · have hgam : ∀ y, y ∈ ({ s with kept := s.kept ++ [x], rest := rest } : St F).gamma ↔ y ∈ s.gamma := by
        intro y
        rw [mem_gamma, mem_gamma, hr]
        simp [or_assoc]
      refine ⟨⟨I.map, fun y hy => I.sound y ((hgam y).1 hy), I.sound_frozen, I.zero, fun k hk => (hgam k).2 (I.nar k hk),
        fun y hy => I.gst y ((hgam y).1 hy), I.closed⟩, fun J P h => h, fun k hk => ⟨hk, rfl⟩⟩
  · have p := pass1_p1 eik hin.fits (Arith.add s.tm dt) s.gamma s.g hsh hlt
    have hgam : ∀ y, y ∈ (begin dt eik s).gamma ↔ y ∈ s.gamma := by
      intro y
      unfold begin St.gamma; simp
    refine ⟨⟨I.map.trans p.map, fun y hy => I.sound y ((hgam y).1 hy), ?_, ?_, ?_, ?_, ?_⟩, fun J P h => p.prim J P h, ?_⟩
    · intro i hi
      have hi : (pass1 eik (Arith.add s.tm dt) s.gamma s.g).state i = _ := hi
      rw [p.state] at hi; exact I.sound_frozen i hi
    · intro q hq
      show (pass1 eik (Arith.add s.tm dt) s.gamma s.g).state q = _ ∧ (pass1 eik (Arith.add s.tm dt) s.gamma s.g).value q = _
      rw [p.state, p.frozen q (I.zero q hq).1]; exact I.zero q hq
    · intro k hk
      have hk : (pass1 eik (Arith.add s.tm dt) s.gamma s.g).state k = _ := hk
      rw [p.state] at hk; exact (hgam k).2 (I.nar k hk)
    · intro y hy
      show (pass1 eik (Arith.add s.tm dt) s.gamma s.g).state y ≠ _
      rw [p.state]; exact I.gst y ((hgam y).1 hy)
    · intro hz i hi j hj ho
      have hi : (pass1 eik (Arith.add s.tm dt) s.gamma s.g).state i = _ := hi
      show (pass1 eik (Arith.add s.tm dt) s.gamma s.g).state j ≠ _
      rw [p.state] at hi ⊢
      exact I.closed hz i hi j hj ho
    · intro k hk
      show (pass1 eik (Arith.add s.tm dt) s.gamma s.g).state k = _ ∧ (pass1 eik (Arith.add s.tm dt) s.gamma s.g).value k = _
      rw [p.state, p.frozen k hk]; exact ⟨hk, rfl⟩

theorem GInv.run {eik : Eik F} {dims : List Nat} {g : Grid F} {pts : List Nat} (hin : Input dims g pts)
    (hopen : ∀ i, g.state i = .opn) {dt : F} {goal n : Nat} {s : St F} (hs : Steps (Step dt goal eik) n (init eik g [] pts) s) :
    GInv dims eik g pts s :=
  Steps.inv (I := fun s : St F => GInv dims eik g pts s) (fun _ _ h hst => (h.step hin hst).1) hs (GInv.start eik hin hopen)

theorem run_prim {eik : Eik F} {dims : List Nat} {g : Grid F} {pts : List Nat} (hin : Input dims g pts)
    (hopen : ∀ i, g.state i = .opn) {dt : F} {goal n : Nat} {s : St F} (hs : Steps (Step dt goal eik) n (init eik g [] pts) s)
    {J : Grid F → Prop} (P : PrimInv eik dims.prod J) (hz : ∀ g' p, p ∈ pts → J g' → J (g'.setValue p Arith.zero)) (h0 : J g) : J s.g := by
  have : GInv dims eik g pts s ∧ J s.g := by
    refine Steps.inv (I := fun s : St F => GInv dims eik g pts s ∧ J s.g) ?_ hs
      ⟨GInv.start eik hin hopen, (init_inv eik hin hopen).prim J P hz h0⟩
    rintro a b ⟨h1, h2⟩ hst
    have := h1.step hin hst
    exact ⟨this.1, this.2.1 J P h2⟩
  exact this.2

/-- **C20** for GMM: the map is never modified, in any arithmetic. -/
theorem _root_.FMV.C20_GMM (dt : F) (goal : Nat) (eik : Eik F) (dims : List Nat) (g : Grid F) (pts : List Nat) (hin : Input dims g pts)
    (hopen : ∀ i, g.state i = .opn) (n : Nat) (s : St F) (hs : Steps (Step dt goal eik) n (init eik g [] pts) s) : SameMap g s.g :=
  (GInv.run hin hopen hs).map

/-- **C10** for GMM: initial points keep arrival time 0, in any arithmetic, adjacent or not. -/
theorem _root_.FMV.C10_GMM (dt : F) (goal : Nat) (eik : Eik F) (dims : List Nat) (g : Grid F) (pts : List Nat) (hin : Input dims g pts)
    (hopen : ∀ i, g.state i = .opn) (n : Nat) (s : St F) (hs : Steps (Step dt goal eik) n (init eik g [] pts) s) (i : Nat) (hi : i ∈ pts) :
    s.g.value i = Arith.zero := ((GInv.run hin hopen hs).zero i hi).2

/-- **C11** for GMM: an occupied cell that is not an initial point is never written, frozen or listed, in any arithmetic. -/
theorem _root_.FMV.C11_GMM (dt : F) (goal : Nat) (eik : Eik F) (dims : List Nat) (g : Grid F) (pts : List Nat) (hin : Input dims g pts)
    (hopen : ∀ i, g.state i = .opn) (n : Nat) (s : St F) (hs : Steps (Step dt goal eik) n (init eik g [] pts) s) (i : Nat)
    (ho : g.occ i = true) (hi : i ∉ pts) : s.g.value i = g.value i ∧ s.g.state i ≠ .frozen ∧ i ∉ s.gamma := by
  have I := GInv.run hin hopen hs
  refine ⟨?_, ?_, ?_⟩
  · have := run_prim hin hopen hs (PrimInv.occupied eik dims.prod i (g.value i)) ?_ ⟨rfl, ho⟩
    · exact this.1
    · rintro g' p hp ⟨h1, h2⟩
      have hne : i ≠ p := by rintro rfl; exact hi hp
      exact ⟨by rw [Grid.value_setValue, if_neg hne]; exact h1, by rw [SameMap.occ_eq (sameMap_setValue _ _ _)]; exact h2⟩
  · intro hf
    have := I.sound_frozen i hf
    cases this with
    | start h _ => exact hi h
    | move _ _ h _ => rw [ho] at h; cases h
  · intro hg
    have := (I.sound i hg).2
    rw [ho] at this; cases this

/-- **C12** for GMM: a FROZEN cell stays FROZEN and keeps its time, in any arithmetic. -/
theorem _root_.FMV.C12_GMM (dt : F) (goal : Nat) (eik : Eik F) (dims : List Nat) (g : Grid F) (pts : List Nat) (hin : Input dims g pts)
    (hopen : ∀ i, g.state i = .opn) (n m : Nat) (s t : St F) (hs : Steps (Step dt goal eik) n (init eik g [] pts) s)
    (ht : Steps (Step dt goal eik) m s t) (i : Nat) (hi : s.g.state i = .frozen) :
    t.g.state i = .frozen ∧ t.g.value i = s.g.value i := by
  have : GInv dims eik g pts t ∧ (t.g.state i = .frozen ∧ t.g.value i = s.g.value i) := by
    refine Steps.inv (I := fun t : St F => GInv dims eik g pts t ∧ (t.g.state i = .frozen ∧ t.g.value i = s.g.value i)) ?_ ht
      ⟨GInv.run hin hopen hs, hi, rfl⟩
    rintro a b ⟨h1, h2, h3⟩ hst
    have := h1.step hin hst
    exact ⟨this.1, (this.2.2 i h2).1, (this.2.2 i h2).2.trans h3⟩
  exact this.2

/-- **C49**: FROZEN cells are always reachable; and when GMM has used up its list (always the case when it stops without a goal) they are
exactly the initial points and the free cells connected to one of them by axis moves through free cells.  Any arithmetic in which a velocity
equal to 0 is below the occupancy margin. -/
theorem _root_.FMV.C49_GMM_only_reachable (dt : F) (goal : Nat) (eik : Eik F) (dims : List Nat) (g : Grid F) (pts : List Nat)
    (hin : Input dims g pts) (hopen : ∀ i, g.state i = .opn) (n : Nat) (s : St F)
    (hs : Steps (Step dt goal eik) n (init eik g [] pts) s) (i : Nat) (hi : s.g.state i = .frozen) : reach dims g pts i :=
  (GInv.run hin hopen hs).sound_frozen i hi

theorem _root_.FMV.C49_GMM_frozen_iff_reachable (dt : F) (goal : Nat) (eik : Eik F) (dims : List Nat) (g : Grid F) (pts : List Nat)
    (hin : Input dims g pts) (hopen : ∀ i, g.state i = .opn) (hz : ZeroOcc g) (n : Nat) (s : St F)
    (hs : Steps (Step dt goal eik) n (init eik g [] pts) s) (hend : s.gamma = []) (i : Nat) :
    s.g.state i = .frozen ↔ reach dims g pts i := by
  have I := GInv.run hin hopen hs
  refine ⟨I.sound_frozen i, ?_⟩
  intro hr
  induction hr with
  | start h _ => exact (I.zero _ h).1
  | @move a b h1 h2 h3 h4 ih =>
    have hb : b ∈ (Shape.mk' dims).nbrs a := (axisAdjacent_iff hin.fits (reach_lt h1)).2 ⟨h2, h4⟩
    have := I.closed hz a ih b hb h3
    cases hst : s.g.state b with
    | opn => exact absurd hst this
    | frozen => rfl
    | narrow => have := I.nar b hst; rw [hend] at this; simp at this

theorem _root_.FMV.C49_GMM_no_goal_ends_empty (dt : F) (goal : Nat) (eik : Eik F) (dims : List Nat) (g : Grid F) (pts : List Nat)
    (hin : Input dims g pts) (hopen : ∀ i, g.state i = .opn) (hgoal : dims.prod ≤ goal) (n : Nat) (s : St F)
    (hs : Steps (Step dt goal eik) n (init eik g [] pts) s) (hdone : Done s) : s.gamma = [] := by
  have : s.stop = false ∧ GInv dims eik g pts s := by
    refine Steps.inv (I := fun s : St F => s.stop = false ∧ GInv dims eik g pts s) ?_ hs ⟨rfl, GInv.start eik hin hopen⟩
    rintro a b ⟨h1, h2⟩ hst
    refine ⟨?_, (h2.step hin hst).1⟩
    obtain ⟨_, rfl⟩ := hst
    unfold next
    split
    · next x rest hr =>
      have hx : x ∈ a.gamma := by rw [mem_gamma, hr]; simp
      have hlt := reach_lt (h2.sound x hx).1
      unfold visit
      split
      · have hN : ∀ j ∈ a.g.shape.nbrs x, j < dims.prod := by
          intro j hj; rw [h2.map.shape, hin.shape] at hj; exact nbr_lt hin.fits hlt hj
        dsimp only
        rw [if_neg (by omega), (relax2s_spec eik (a.g.shape.nbrs x) a hN).2.2.2.2.2.2.2.2]
        exact h1
      · exact h1
    · exact h1
  rcases hdone.2 with h | h
  · rw [this.1] at h; cases h
  · exact h

theorem zeroOcc_xr (g : Grid XR) : ZeroOcc g := by
  intro j hj
  unfold Grid.vel at hj
  show Arith.lt (g.cells j).occupancy (fin eps) = true
  cases hv : (g.cells j).occupancy with
  | fin r =>
    rw [hv] at hj
    have : r = 0 := by simpa [Arith.eq, XR.eq, Arith.zero] using hj
    subst this
    simp [Arith.lt, XR.lt, eps_pos]
  | nan => rw [hv] at hj; simp [Arith.eq, XR.eq, Arith.zero] at hj
  | ninf => rw [hv] at hj; simp [Arith.eq, XR.eq, Arith.zero] at hj
  | pinf => rw [hv] at hj; simp [Arith.eq, XR.eq, Arith.zero] at hj

section exact
variable {dims : List Nat} {g : Grid XR} {h : ℝ} {v : Nat → ℝ} {pts : List Nat}

theorem lowG_zero (X : XInput dims g h v pts) (g' : Grid XR) (p : Nat) (hp : p ∈ pts) (I : LowG X g') :
    LowG X (g'.setValue p Arith.zero) := by
  refine ⟨I.map.trans (sameMap_setValue _ _ _), goodG_setValue I.good (Or.inr ⟨0, le_refl _, rfl⟩), ?_⟩
  intro U hU j hj
  unfold tv
  rw [Grid.value_setValue]; split
  · next e => subst e; rw [((X.exSol hU) j hj).1 hp]; exact le_refl _
  · exact I.low U hU j hj

theorem lowG_fresh (X : XInput dims g h v pts) (hfr : Fresh g) : LowG X g := by
  refine ⟨SameMap.refl _, fun i => by rw [hfr.value]; exact Or.inl rfl, ?_⟩
  intro U hU j hj
  unfold tv
  rw [hfr.value]; exact le_top

/-- **C18** for GMM -/
theorem _root_.FMV.C18_GMM (X : XInput dims g h v pts) (hfr : Fresh g) (U : Nat → WithTop ℝ) (hU : X.problem.IsSolution U)
    (dt : XR) (goal n : Nat) (s : St XR) (hs : Steps (Step dt goal eikS) n (init eikS g [] pts) s) (i : Nat) (hi : i < dims.prod) :
    GoodT (s.g.value i) ∧ U i ≤ toT (s.g.value i) := by
  have I := run_prim X.input hfr.state hs (LowG.prim X) (fun g' p hp I => lowG_zero X g' p hp I) (lowG_fresh X hfr)
  exact ⟨I.good i, I.low U hU i hi⟩

end exact
end GMM
end FMV
