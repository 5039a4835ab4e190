import Verif.Props.FIM
import Verif.Lemmas.Gap
import Verif.Lemmas.Terminate
/-!
# FIM always stops (C29)
-/
set_option linter.unusedSectionVars false
set_option linter.unusedVariables false
namespace FMV
open Spec Shape XR FMM
namespace FIM
variable {dims : List Nat} {g : Grid XR} {h : ℝ} {v : Nat → ℝ} {pts : List Nat}

/-- `b` is the result of updating cell `i` where each cell has one of the times `A`, `B`, and cell `i` has time `A i`. -/
def Written (dims : List Nat) (g : Grid XR) (h : ℝ) (v : Nat → ℝ) (A B : Nat → WithTop ℝ) (i : Nat) : Prop :=
  i < dims.prod ∧ g.occ i = false ∧ ∃ T' : Nat → WithTop ℝ, (∀ j, T' j = A j ∨ T' j = B j) ∧ T' i = A i ∧
    B i = upd (h / v i) (T' i) (mins (Shape.mk' dims) T' i)

theorem testNbr_cases (X : XInput dims g h v pts) {s : St XR} {n : Nat} (L : LowG X s.g) (hn : n < dims.prod) :
    LowG X (testNbr eikS s n).g ∧ (∀ j, j ≠ n → tv (testNbr eikS s n).g j = tv s.g j) ∧
    (((testNbr eikS s n).before = s.before ∧ tv (testNbr eikS s n).g n = tv s.g n) ∨
     ((testNbr eikS s n).before = s.before ++ [n] ∧ g.occ n = false ∧
      tv (testNbr eikS s n).g n = upd (h / v n) (tv s.g n) (mins (Shape.mk' dims) (tv s.g) n) ∧ tv (testNbr eikS s n).g n < tv s.g n)) := by
  unfold testNbr
  split
  · exact ⟨L, fun _ _ => rfl, Or.inl ⟨rfl, rfl⟩⟩
  · next hc =>
    rw [not_or] at hc
    have ho' : s.g.occ n = false := by simpa using hc.2
    have hog : g.occ n = false := by rw [← SameMap.occ_eq L.map]; exact ho'
    dsimp only
    split
    · next hb =>
      refine ⟨LowG.congr (L.write hn ho') (sameMap_setState _ _ _) (fun _ => by simp only [Grid.value_setState]), ?_, Or.inr ⟨rfl, hog, ?_⟩⟩
      · intro k hk; unfold tv; simp [Grid.value_setValue, hk]
      · have e1 : tv (((s.g.setScratch (eikS s.g n).2).setValue n (eikS s.g n).1).setState n .narrow) n =
            upd (h / v n) (tv s.g n) (mins (Shape.mk' dims) (tv s.g) n) := by
          unfold tv
          rw [Grid.value_setState, Grid.value_setValue, if_pos rfl, X.eik_eq L.map L.good hn hog, toT_ofT]
          rfl
        refine ⟨e1, ?_⟩
        rw [e1]
        rw [X.better_iff L.map L.good hn hog] at hb
        refine lt_of_le_of_lt ?_ hb
        exact le_add_of_nonneg_right (by exact_mod_cast eps_pos.le)
    · exact ⟨LowG.congr L (sameMap_setScratch _ _) (fun _ => rfl), fun _ _ => rfl, Or.inl ⟨rfl, rfl⟩⟩

theorem testNbrs_cases (X : XInput dims g h v pts) : ∀ (ns : List Nat) (s : St XR), LowG X s.g → ns.Nodup → (∀ n ∈ ns, n < dims.prod) →
    (∀ j, j ∉ ns → tv (ns.foldl (testNbr eikS) s).g j = tv s.g j) ∧
    (∀ i ∈ ns, tv (ns.foldl (testNbr eikS) s).g i = tv s.g i ∨ Written dims g h v (tv s.g) (tv (ns.foldl (testNbr eikS) s).g) i) ∧
    (∀ i, i ∈ (ns.foldl (testNbr eikS) s).before → i ∈ s.before ∨ (i ∈ ns ∧ tv (ns.foldl (testNbr eikS) s).g i < tv s.g i)) ∧
    (∀ i, i ∈ s.before → i ∈ (ns.foldl (testNbr eikS) s).before) := by
  intro ns
  induction ns with
  | nil => intro s L _ _; exact ⟨fun _ _ => rfl, by simp, fun _ h => Or.inl h, fun _ h => h⟩
  | cons n ns ih =>
    intro s L hnd hlt
    rw [List.nodup_cons] at hnd
    rw [List.foldl_cons]
    obtain ⟨a1, a2, a3⟩ := testNbr_cases X L (hlt n (by simp))
    obtain ⟨b1, b2, b3, b4⟩ := ih (testNbr eikS s n) a1 hnd.2 (fun m hm => hlt m (by simp [hm]))
    set u := testNbr eikS s n
    set t := ns.foldl (testNbr eikS) u
    have hn := b1 n hnd.1
    refine ⟨?_, ?_, ?_, ?_⟩
    · intro j hj
      simp only [List.mem_cons, not_or] at hj
      rw [b1 j hj.2, a2 j hj.1]
    · intro i hi
      by_cases hin : i = n
      · subst hin
        rw [hn]
        rcases a3 with ⟨_, h1⟩ | ⟨_, ho, h1, _⟩
        · exact Or.inl h1
        · right
          exact ⟨hlt i (by simp), ho, tv s.g, fun _ => Or.inl rfl, rfl, by rw [hn]; exact h1⟩
      · have hi' : i ∈ ns := by simpa [hin] using hi
        rcases b2 i hi' with h1 | ⟨c1, c2, T', c3, c4, c5⟩
        · left; rw [h1, a2 i hin]
        · right
          refine ⟨c1, c2, T', ?_, by rw [c4, a2 i hin], c5⟩
          intro j
          by_cases hj : j = n
          · subst hj
            right
            rcases c3 j with h1 | h1
            · rw [h1, hn]
            · exact h1
          · rw [← a2 j hj]; exact c3 j
    · intro i hi
      rcases b3 i hi with h1 | ⟨h1, h2⟩
      · rcases a3 with ⟨c1, _⟩ | ⟨c1, _, _, c2⟩
        · left; rw [← c1]; exact h1
        · rw [c1] at h1
          simp only [List.mem_append, List.mem_singleton] at h1
          rcases h1 with h1 | rfl
          · exact Or.inl h1
          · right; exact ⟨by simp, by rw [hn]; exact c2⟩
      · right
        have hin : i ≠ n := by rintro rfl; exact hnd.1 h1
        exact ⟨by simp [h1], by rw [← a2 i hin]; exact h2⟩
    · intro i hi
      apply b4
      rcases a3 with ⟨c1, _⟩ | ⟨c1, _⟩ <;> rw [c1]
      · exact hi
      · simp [hi]

/-- everything termination needs to know about one step -/
structure StepFacts (dims : List Nat) (g : Grid XR) (h : ℝ) (v : Nat → ℝ) (s t : St XR) : Prop where
  write : ∀ i, tv t.g i = tv s.g i ∨ Written dims g h v (tv s.g) (tv t.g) i
  activate : ∀ i, Active t i → ¬ Active s i → tv t.g i < tv s.g i ∧ ∃ x, Active s x ∧ i ∈ (Shape.mk' dims).nbrs x
  visit : ∀ x rest, s.after = x :: rest → Written dims g h v (tv s.g) (tv t.g) x
  settle : ∀ x rest (r : ℝ), s.after = x :: rest → tv s.g x = r → tv t.g x = r → ¬ Active t x
  rest : ∀ x rest, s.after = x :: rest → t.after = rest ∧ ∀ i ∈ s.before, i ∈ t.before
  again : s.after = [] → t.after = s.before

theorem stepFacts (X : XInput dims g h v pts) {e : ℝ} (he : 0 ≤ e) {goal : Nat} {s t : St XR} (I : AInv X e s)
    (hst : Step (fin e) goal eikS s t) : StepFacts dims g h v s t := by
  have It := I.step X he hst
  obtain ⟨_, rfl⟩ := hst
  cases hs : s.after with
  | nil =>
    have e1 : next (fin e) goal eikS s = { s with after := s.before, before := [] } := by unfold next; rw [hs]
    rw [e1]
    refine ⟨fun _ => Or.inl rfl, ?_, by simp [hs], by simp [hs], by simp [hs], fun _ => rfl⟩
    intro i h1 h2
    exfalso; apply h2
    rcases h1 with h1 | h1
    · simp at h1
    · exact Or.inl h1
  | cons x rest =>
    have e1 : next (fin e) goal eikS s = FIM.visit (fin e) goal eikS s x rest := by unfold next; rw [hs]
    rw [e1] at It ⊢
    obtain ⟨hxN, hox, hxn⟩ := I.act x (Or.inr (by rw [hs]; simp))
    have hos : s.g.occ x = false := by rw [SameMap.occ_eq I.low.map]; exact hox
    have hndx : x ∉ s.before ∧ x ∉ rest ∧ (s.before ++ rest).Nodup := by
      have := I.nodup
      rw [hs] at this
      have hp : (s.before ++ x :: rest).Perm (x :: (s.before ++ rest)) := List.perm_middle
      rw [hp.nodup_iff, List.nodup_cons] at this
      simp only [List.mem_append, not_or] at this
      exact ⟨this.1.1, this.1.2, this.2⟩
    unfold FIM.visit at It ⊢
    dsimp only at It ⊢
    set g1 := (s.g.setScratch (eikS s.g x).2).setValue x (eikS s.g x).1 with hg1
    have htv1 : ∀ k, k ≠ x → tv g1 k = tv s.g k := by
      intro k hk; unfold tv; simp [hg1, Grid.value_setValue, hk]
    have htvx : tv g1 x = upd (h / v x) (tv s.g x) (mins (Shape.mk' dims) (tv s.g) x) := by
      unfold tv
      rw [show g1.value x = (eikS s.g x).1 by simp [hg1, Grid.value_setValue], X.eik_eq I.low.map I.low.good hxN hox, toT_ofT]
      rfl
    have hL1 : LowG X g1 := I.low.write hxN hos
    have hg1s : g1.shape = Shape.mk' dims := hL1.map.shape.trans X.shape
    have hwx : ∀ B : Nat → WithTop ℝ, B x = tv g1 x → Written dims g h v (tv s.g) B x := fun B hB =>
      ⟨hxN, hox, tv s.g, fun _ => Or.inl rfl, rfl, by rw [hB, htvx]⟩
    split
    · next hconv =>
      rw [if_pos hconv] at It
      obtain ⟨b1, b2, b3, b4⟩ := testNbrs_cases X ((Shape.mk' dims).nbrs x) ({ s with g := g1 } : St XR) hL1 (nbrs_nodup X.fits hxN)
        (fun n hn => nbr_lt X.fits hxN hn)
      rw [hg1s] at It ⊢
      set s2 := ((Shape.mk' dims).nbrs x).foldl (testNbr eikS) ({ s with g := g1 } : St XR) with hs2
      have hxx : x ∉ (Shape.mk' dims).nbrs x := nbrs_irrefl X.fits hxN
      have htv2 : ∀ k, tv (s2.g.setState x .frozen) k = tv s2.g k := by intro k; unfold tv; simp
      have htvf : tv (s2.g.setState x .frozen) = tv s2.g := funext htv2
      have hx2 : tv s2.g x = tv g1 x := b1 x hxx
      refine ⟨?_, ?_, ?_, ?_, ?_, by simp [hs]⟩
      · intro i
        show tv (s2.g.setState x .frozen) i = _ ∨ Written dims g h v _ (tv (s2.g.setState x .frozen)) i
        rw [htvf]
        by_cases hix : i = x
        · subst hix; exact Or.inr (hwx _ hx2)
        · by_cases hin : i ∈ (Shape.mk' dims).nbrs x
          · rcases b2 i hin with h1 | ⟨c1, c2, T', c3, c4, c5⟩
            · left; rw [h1]; exact htv1 i hix
            · right
              refine ⟨c1, c2, T', ?_, c4.trans (htv1 i hix), c5⟩
              intro j
              by_cases hj : j = x
              · subst hj
                right
                rcases c3 j with h1 | h1
                · rw [h1, hx2]
                · exact h1
              · have := c3 j
                rw [show tv ({ s with g := g1 } : St XR).g j = tv s.g j from htv1 j hj] at this
                exact this
          · left; rw [b1 i hin]; exact htv1 i hix
      · intro i h1 h2
        show tv (s2.g.setState x .frozen) i < _ ∧ _
        rw [htvf]
        have : i ∈ s2.before := by
          rcases h1 with h1 | h1
          · exact h1
          · exfalso; apply h2; right; rw [hs]; exact List.mem_cons_of_mem _ h1
        rcases b3 i this with h3 | ⟨h3, h4⟩
        · exact absurd (Or.inl h3) h2
        · refine ⟨?_, x, Or.inr (by rw [hs]; simp), h3⟩
          have hix : i ≠ x := by rintro rfl; exact hxx h3
          rw [← htv1 i hix]; exact h4
      · intro y rest' hy
        rw [hs] at hy; cases hy
        show Written dims g h v _ (tv (s2.g.setState x .frozen)) x
        rw [htvf]; exact hwx _ hx2
      · intro y rest' r hy _ _ hact
        rw [hs] at hy; cases hy
        have := (It.act x hact).2.2
        change (s2.g.setState x .frozen).state x = .narrow at this
        simp [Grid.state_setState] at this
      · intro y rest' hy
        rw [hs] at hy; cases hy
        exact ⟨rfl, b4⟩
    · next hconv =>
      refine ⟨?_, ?_, ?_, ?_, ?_, by simp [hs]⟩
      · intro i
        by_cases hix : i = x
        · subst hix; exact Or.inr (hwx _ rfl)
        · exact Or.inl (htv1 i hix)
      · intro i h1 h2
        exfalso; apply h2
        rcases h1 with h1 | h1
        · rcases List.mem_append.1 h1 with h1 | h1
          · exact Or.inl h1
          · right; rw [hs]; simp at h1; simp [h1]
        · right; rw [hs]; exact List.mem_cons_of_mem _ h1
      · intro y rest' hy
        rw [hs] at hy; cases hy
        exact hwx _ rfl
      · intro y rest' r hy h1 h2
        rw [hs] at hy; cases hy
        exfalso; apply hconv
        have e2 : s.g.value x = fin r := by rw [← (I.low.good x).ofT_toT]; unfold tv at h1; rw [h1]; rfl
        have e3 : (eikS s.g x).1 = fin r := by
          have h3 := (X.eik_good I.low.map I.low.good hxN hox).ofT_toT
          rw [← h3]
          change tv g1 x = _ at h2
          unfold tv at h2
          rw [show g1.value x = (eikS s.g x).1 by simp [hg1, Grid.value_setValue]] at h2
          rw [h2]; rfl
        rw [e2, e3]
        simp [Arith.le, Arith.abs, Arith.sub, XR.add, XR.neg, XR.abs, XR.le, he]
      · intro y rest' hy
        rw [hs] at hy; cases hy
        exact ⟨rfl, fun i hi => by simp [hi]⟩

/-! ### an infinite run cannot exist -/

/-- from step `N` on, once cell `i` has been seen below `L` it never changes -/
def StableAt (T : Nat → Nat → WithTop ℝ) (L : WithTop ℝ) (i N : Nat) : Prop :=
  ∀ m, N ≤ m → ∀ k, N ≤ k → T m i < L → T k i = T m i

theorem StableAt.later {T : Nat → Nat → WithTop ℝ} {L : WithTop ℝ} {i N M : Nat} (hs : StableAt T L i N) (h : N ≤ M) : StableAt T L i M :=
  fun m hm k hk => hs m (h.trans hm) k (h.trans hk)

/-- a bound for finitely many cells -/
theorem bound_cells {P : Nat → Nat → Prop} (hmono : ∀ i N M, P i N → N ≤ M → P i M) : ∀ K : Nat, (∀ i, i < K → ∃ N, P i N) →
    ∃ N, ∀ i, i < K → P i N := by
  intro K
  induction K with
  | zero => intro _; exact ⟨0, fun i hi => absurd hi (by omega)⟩
  | succ K ih =>
    intro hK
    obtain ⟨N, hN⟩ := ih (fun i hi => hK i (by omega))
    obtain ⟨M, hM⟩ := hK K (by omega)
    refine ⟨max N M, fun i hi => ?_⟩
    by_cases h1 : i = K
    · subst h1; exact hmono _ _ _ hM (le_max_right _ _)
    · exact hmono _ _ _ (hN i (by omega)) (le_max_left _ _)

/-- one more level of times becomes stable -/
theorem stable_step {T : Nat → Nat → WithTop ℝ} {δ ℓ : ℝ} (hδ : 0 < δ) (hδe : δ ≤ eps / 2) (hf : Fits dims (2^31+1))
    (hδc : ∀ i, i < dims.prod → g.occ i = false → δ ≤ h / v i)
    (hw : ∀ n i, T (n+1) i = T n i ∨ Written dims g h v (T n) (T (n+1)) i)
    {N : Nat} (hst : ∀ i, i < dims.prod → StableAt T ℓ i N) {i : Nat} (hi : i < dims.prod) :
    ∃ M, N ≤ M ∧ StableAt T ((ℓ + δ : ℝ) : WithTop ℝ) i M := by
  by_cases hlow : ∃ m, N ≤ m ∧ T m i < ℓ
  · obtain ⟨m, hm, hlt⟩ := hlow
    refine ⟨N, le_refl _, ?_⟩
    intro a ha b hb _
    rw [hst i hi m hm a ha hlt, hst i hi m hm b hb hlt]
  · push Not at hlow
    -- all writes of `i` from step `N` on
    have same : ∀ m k, N ≤ m → N ≤ k → Written dims g h v (T m) (T (m+1)) i → Written dims g h v (T k) (T (k+1)) i →
        T (m+1) i < ((ℓ + δ : ℝ) : WithTop ℝ) → T (k+1) i = T (m+1) i := by
      rintro m k hm hk ⟨_, ho, A, a1, a2, a3⟩ ⟨_, _, B, b1, b2, b3⟩ hlt
      have hN : ∀ j, j < dims.prod → ∀ n, N ≤ n → T n j < ℓ → (∀ n', N ≤ n' → T n' j = T n j) := fun j hj n hn hl n' hn' => hst j hj n hn n' hn' hl
      rw [a3] at hlt
      rw [a3, b3]
      refine upd_gap hδ hδe (hδc i hi ho) (by rw [a2]; exact hlow m hm) (by rw [b2]; exact hlow k hk) ?_ hlt
      intro d hd j hj hlt'
      have hjN : j < dims.prod := nbr_lt hf hi (mem_nbrs.2 ⟨d, hd, hj⟩)
      have ea : ∃ n, N ≤ n ∧ A j = T n j := by
        rcases a1 j with h1 | h1
        · exact ⟨m, hm, h1⟩
        · exact ⟨m+1, by omega, h1⟩
      have eb : ∃ n, N ≤ n ∧ B j = T n j := by
        rcases b1 j with h1 | h1
        · exact ⟨k, hk, h1⟩
        · exact ⟨k+1, by omega, h1⟩
      obtain ⟨n, hn, ea⟩ := ea
      obtain ⟨n', hn', eb⟩ := eb
      rcases hlt' with h1 | h1
      · rw [ea] at h1 ⊢; rw [eb]; exact (hN j hjN n hn h1 n' hn').symm
      · rw [eb] at h1 ⊢; rw [ea]; exact hN j hjN n' hn' h1 n hn
    by_cases hex : ∃ m, N ≤ m ∧ Written dims g h v (T m) (T (m+1)) i
    · obtain ⟨m, hm, hwm⟩ := hex
      by_cases hlt : ∃ k, N ≤ k ∧ Written dims g h v (T k) (T (k+1)) i ∧ T (k+1) i < ((ℓ + δ : ℝ) : WithTop ℝ)
      · obtain ⟨k, hk, hwk, hlt⟩ := hlt
        have hc : ∀ n, T (k+1+n) i = T (k+1) i := by
          intro n
          induction n with
          | zero => rfl
          | succ n ih =>
            rcases hw (k+1+n) i with h1 | h1
            · rw [show k+1+(n+1) = k+1+n+1 by omega, h1, ih]
            · rw [show k+1+(n+1) = k+1+n+1 by omega]
              exact same k (k+1+n) hk (by omega) hwk h1 hlt
        refine ⟨k+1, by omega, ?_⟩
        intro a ha b hb _
        rw [show a = k+1+(a-(k+1)) by omega, show b = k+1+(b-(k+1)) by omega, hc, hc]
      · push Not at hlt
        have hc : ∀ n, ((ℓ + δ : ℝ) : WithTop ℝ) ≤ T (m+1+n) i := by
          intro n
          induction n with
          | zero => exact hlt m hm hwm
          | succ n ih =>
            rcases hw (m+1+n) i with h1 | h1
            · rw [show m+1+(n+1) = m+1+n+1 by omega, h1]; exact ih
            · rw [show m+1+(n+1) = m+1+n+1 by omega]
              exact hlt (m+1+n) (by omega) h1
        refine ⟨m+1, by omega, ?_⟩
        intro a ha b hb hl
        exact absurd hl (not_lt.2 (by rw [show a = m+1+(a-(m+1)) by omega]; exact hc _))
    · push Not at hex
      have hc : ∀ n, T (N+n) i = T N i := by
        intro n
        induction n with
        | zero => rfl
        | succ n ih =>
          rcases hw (N+n) i with h1 | h1
          · rw [show N+(n+1) = N+n+1 by omega, h1, ih]
          · exact absurd h1 (hex (N+n) (by omega))
      refine ⟨N, le_refl _, ?_⟩
      intro a ha b hb _
      rw [show a = N+(a-N) by omega, show b = N+(b-N) by omega, hc, hc]

/-- every level becomes stable -/
theorem stable_level {T : Nat → Nat → WithTop ℝ} {δ : ℝ} (hδ : 0 < δ) (hδe : δ ≤ eps / 2) (hf : Fits dims (2^31+1))
    (hδc : ∀ i, i < dims.prod → g.occ i = false → δ ≤ h / v i) (hnn : ∀ n i, 0 ≤ T n i)
    (hw : ∀ n i, T (n+1) i = T n i ∨ Written dims g h v (T n) (T (n+1)) i) :
    ∀ k : Nat, ∃ N, ∀ i, i < dims.prod → StableAt T ((k * δ : ℝ) : WithTop ℝ) i N := by
  intro k
  induction k with
  | zero =>
    refine ⟨0, fun i _ m _ k _ hl => ?_⟩
    exfalso
    have := hnn m i
    simp at hl
    exact absurd hl (not_lt.2 this)
  | succ k ih =>
    obtain ⟨N, hN⟩ := ih
    obtain ⟨M, hM⟩ := bound_cells (P := fun i M => StableAt T ((k * δ + δ : ℝ) : WithTop ℝ) i M) (fun i N M hs h => hs.later h) dims.prod
      (fun i hi => by
        obtain ⟨M, _, hM⟩ := stable_step hδ hδe hf hδc hw hN hi
        exact ⟨M, hM⟩)
    refine ⟨M, fun i hi => ?_⟩
    rw [show (((k+1 : ℕ) : ℝ) * δ) = k * δ + δ by push_cast; ring]
    exact hM i hi

/-- a time that settles on a finite value -/
def Settles (T : Nat → Nat → WithTop ℝ) (i : Nat) : Prop := ∃ N, ∃ r : ℝ, ∀ n, N ≤ n → T n i = r

theorem not_settles {T : Nat → Nat → WithTop ℝ} {δ : ℝ} (hδ : 0 < δ) {K : Nat}
    (hl : ∀ k : Nat, ∃ N, ∀ i, i < K → StableAt T ((k * δ : ℝ) : WithTop ℝ) i N) {i : Nat} (hi : i < K) (hs : ¬ Settles T i) (L : ℝ) :
    ∃ N, ∀ n, N ≤ n → (L : WithTop ℝ) ≤ T n i := by
  obtain ⟨k, hk⟩ := exists_nat_ge (L / δ)
  obtain ⟨N, hN⟩ := hl k
  refine ⟨N, fun n hn => ?_⟩
  by_contra hc
  have hlt := not_le.1 hc
  have hlt' : T n i < ((k * δ : ℝ) : WithTop ℝ) := lt_of_lt_of_le hlt (by exact_mod_cast (div_le_iff₀ hδ).1 hk)
  apply hs
  obtain ⟨r, hr⟩ := WithTop.ne_top_iff_exists.1 (ne_top_of_lt hlt)
  refine ⟨N, r, fun m hm => ?_⟩
  rw [hN i hi n hn m hm hlt', hr]

/-- a positive gap that suits every free cell -/
theorem exists_gap (X : XInput dims g h v pts) : ∃ δ : ℝ, 0 < δ ∧ δ ≤ eps / 2 ∧ ∀ i, i < dims.prod → g.occ i = false → δ ≤ h / v i := by
  have : ∀ K, K ≤ dims.prod → ∃ δ : ℝ, 0 < δ ∧ δ ≤ eps / 2 ∧ ∀ i, i < K → g.occ i = false → δ ≤ h / v i := by
    intro K
    induction K with
    | zero => intro _; exact ⟨eps / 2, by have := eps_pos; linarith, le_refl _, fun i hi => absurd hi (by omega)⟩
    | succ K ih =>
      intro hK
      obtain ⟨δ, h1, h2, h3⟩ := ih (by omega)
      by_cases ho : g.occ K = false
      · have hc := X.cpos (show K < dims.prod by omega) ho
        refine ⟨min δ (h / v K), lt_min h1 hc, le_trans (min_le_left _ _) h2, fun i hi hoi => ?_⟩
        by_cases hik : i = K
        · subst hik; exact min_le_right _ _
        · exact le_trans (min_le_left _ _) (h3 i (by omega) hoi)
      · refine ⟨δ, h1, h2, fun i hi hoi => h3 i ?_ hoi⟩
        have : i ≠ K := by rintro rfl; exact ho hoi
        omega
  exact this _ (le_refl _)

/-- a cell of the list is visited -/
theorem visited (f : Nat → St XR) (hf : ∀ n, StepFacts dims g h v (f n) (f (n+1))) {x : Nat} :
    ∀ {n : Nat}, Active (f n) x → ∃ m rest, n ≤ m ∧ (f m).after = x :: rest := by
  have key : ∀ (L : Nat) (n : Nat), (f n).after.length = L → x ∈ (f n).after → ∃ m rest, n ≤ m ∧ (f m).after = x :: rest := by
    intro L
    induction L with
    | zero => intro n hl hx; rw [List.length_eq_zero_iff.1 hl] at hx; simp at hx
    | succ L ih =>
      intro n hl hx
      cases hs : (f n).after with
      | nil => rw [hs] at hx; simp at hx
      | cons y rest =>
        by_cases hxy : x = y
        · exact ⟨n, rest, le_refl _, by rw [hs, hxy]⟩
        · have h1 := ((hf n).rest y rest hs).1
          obtain ⟨m, r, h2, h3⟩ := ih (n+1) (by rw [h1]; rw [hs] at hl; simpa using hl) (by
            rw [h1]; rw [hs] at hx
            rcases List.mem_cons.1 hx with h | h
            · exact absurd h hxy
            · exact h)
          exact ⟨m, r, by omega, h3⟩
  have key2 : ∀ (L : Nat) (n : Nat), (f n).after.length = L → x ∈ (f n).before → ∃ m rest, n ≤ m ∧ (f m).after = x :: rest := by
    intro L
    induction L with
    | zero =>
      intro n hl hx
      have h1 := (hf n).again (List.length_eq_zero_iff.1 hl)
      obtain ⟨m, r, h2, h3⟩ := key _ (n+1) rfl (by rw [h1]; exact hx)
      exact ⟨m, r, by omega, h3⟩
    | succ L ih =>
      intro n hl hx
      cases hs : (f n).after with
      | nil => rw [hs] at hl; simp at hl
      | cons y rest =>
        obtain ⟨h1, h2⟩ := (hf n).rest y rest hs
        obtain ⟨m, r, h3, h4⟩ := ih (n+1) (by rw [h1]; rw [hs] at hl; simpa using hl) (h2 x hx)
        exact ⟨m, r, by omega, h4⟩
  intro n hx
  rcases hx with hx | hx
  · exact key2 _ n rfl hx
  · exact key _ n rfl hx

/-- a cell whose time settles leaves the list for good -/
theorem settled_inactive (f : Nat → St XR) (hf : ∀ n, StepFacts dims g h v (f n) (f (n+1))) {x : Nat}
    (hs : Settles (fun n i => tv (f n).g i) x) : ∃ N, ∀ n, N ≤ n → ¬ Active (f n) x := by
  obtain ⟨N, r, hr⟩ := hs
  have stay : ∀ M, N ≤ M → ¬ Active (f M) x → ∀ k, ¬ Active (f (M+k)) x := by
    intro M hM h0 k
    induction k with
    | zero => exact h0
    | succ k ih =>
      intro ha
      have := ((hf (M+k)).activate x ha ih).1
      have h1 := hr (M+k) (by omega)
      have h2 := hr (M+k+1) (by omega)
      dsimp only at h1 h2
      rw [h1, h2] at this
      exact lt_irrefl _ this
  by_cases ha : Active (f N) x
  · obtain ⟨m, rest, hm, hv⟩ := visited f hf ha
    have := (hf m).settle x rest r hv (hr m hm) (hr (m+1) (by omega))
    refine ⟨m+1, fun n hn => ?_⟩
    rw [show n = m+1+(n-(m+1)) by omega]
    exact stay (m+1) (by omega) this _
  · refine ⟨N, fun n hn => ?_⟩
    rw [show n = N+(n-N) by omega]
    exact stay N (le_refl _) ha _

/-- an update next to a cell with time `r` gives at most `r + c + eps` -/
theorem upd_le_nbr (X : XInput dims g h v pts) {T : Nat → WithTop ℝ} {x y : Nat} {r : ℝ} (hx : x < dims.prod) (ho : g.occ x = false)
    (hxy : y ∈ (Shape.mk' dims).nbrs x) (hy : T y = r) :
    (h / v x)^2 ≤ residL (r + h / v x) (mins (Shape.mk' dims) T x) := by
  obtain ⟨k, hk, hj⟩ := mem_nbrs.1 hxy
  have hc := X.cpos hx ho
  have h1 : posSq (r + h / v x) (dimMin (Shape.mk' dims) T x k) ≤ residL (r + h / v x) (mins (Shape.mk' dims) T x) :=
    posSq_le_residL (List.mem_map.2 ⟨k, List.mem_range.2 hk, rfl⟩)
  have h2 : posSq (r + h / v x) (r : WithTop ℝ) ≤ posSq (r + h / v x) (dimMin (Shape.mk' dims) T x k) :=
    posSq_anti _ (by rw [← hy]; exact dimMin_le hj)
  rw [posSq_coe, add_sub_cancel_left, max_eq_left hc.le] at h2
  linarith

/-- a free neighbour of a cell whose time settles settles -/
theorem settles_nbr (X : XInput dims g h v pts) {e : ℝ} (f : Nat → St XR) (hI : ∀ n, AInv X e (f n))
    (hf : ∀ n, StepFacts dims g h v (f n) (f (n+1))) {x y : Nat} (hx : x < dims.prod) (ho : g.occ x = false)
    (hxy : y ∈ (Shape.mk' dims).nbrs x) (hy : Settles (fun n i => tv (f n).g i) y) : Settles (fun n i => tv (f n).g i) x := by
  by_contra hns
  obtain ⟨δ, d1, d2, d3⟩ := exists_gap X
  have hlev := stable_level (T := fun n i => tv (f n).g i) d1 d2 X.fits d3 (fun n i => ((hI n).low.good i).toT_nonneg) (fun n i => (hf n).write i)
  have hcx := X.cpos hx ho
  have he := eps_pos
  obtain ⟨N2, hina⟩ := settled_inactive f hf hy
  obtain ⟨N0, r, hr⟩ := hy
  obtain ⟨N1, hbig⟩ := not_settles d1 hlev hx hns (r + h / v x + eps + 1)
  dsimp only at hr hbig
  set N := max (max N0 N1) N2 with hN
  have hN0 : N0 ≤ N := by omega
  have hN1 : N1 ≤ N := by omega
  have hN2 : N2 ≤ N := by omega
  -- never written again
  have hnw : ∀ n, N ≤ n → ¬ Written dims g h v (tv (f n).g) (tv (f (n+1)).g) x := by
    rintro n hn ⟨_, _, T', t1, t2, t3⟩
    have hTy : T' y = r := by
      rcases t1 y with h1 | h1
      · rw [h1]; exact hr n (by omega)
      · rw [h1]; exact hr (n+1) (by omega)
    have hbn := hbig n (by omega)
    have hlt : ((r + h / v x : ℝ) : WithTop ℝ) < T' x := by
      rw [t2]
      refine lt_of_lt_of_le ?_ hbn
      exact_mod_cast (by linarith : r + h / v x < r + h / v x + eps + 1)
    obtain ⟨u, hu1, hu2⟩ := upd_upper hcx hlt (upd_le_nbr X hx ho hxy hTy)
    have hbn1 := hbig (n+1) (by omega)
    rw [t3, hu1] at hbn1
    have : r + h / v x + eps + 1 ≤ u := by exact_mod_cast hbn1
    linarith
  have hconst : ∀ k, tv (f (N+k)).g x = tv (f N).g x := by
    intro k
    induction k with
    | zero => rfl
    | succ k ih =>
      rcases (hf (N+k)).write x with h1 | h1
      · rw [show N+(k+1) = N+k+1 by omega, h1, ih]
      · exact absurd h1 (hnw _ (by omega))
  have htop : tv (f N).g x = ⊤ := by
    by_contra hc
    obtain ⟨q, hq⟩ := WithTop.ne_top_iff_exists.1 hc
    apply hns
    refine ⟨N, q, fun n hn => ?_⟩
    show tv (f n).g x = q
    rw [show n = N+(n-N) by omega, hconst, hq]
  have hxna : ¬ Active (f N) x := by
    intro ha
    obtain ⟨m, rest, hm, hv⟩ := visited f hf ha
    exact hnw m hm ((hf m).visit x rest hv)
  have I := hI N
  have hyN : y < dims.prod := nbr_lt X.fits hx hxy
  have hxn : (f N).g.state x ≠ .narrow := fun h1 => hxna (I.nar x hx h1)
  have hyn : (f N).g.state y ≠ .narrow := fun h1 => hina N hN2 (I.nar y hyN h1)
  have hxp : x ∉ pts := by
    intro hp
    rw [(I.src x hp).2] at htop
    exact absurd htop.symm WithTop.top_ne_zero
  have hmy : mask (f N).g y = r := by unfold mask; rw [if_neg hyn]; exact hr N hN0
  have := I.conv x hx ho hxp hxn _ (upd_le_nbr X hx ho hxy hmy)
  unfold mask at this
  rw [if_neg hxn, htop, top_le_iff] at this
  exact absurd this WithTop.coe_ne_top

/-- there is no infinite run -/
theorem no_infinite (X : XInput dims g h v pts) (hna : X.NonAdj) (hfr : Fresh g) {e : ℝ} (he : 0 ≤ e) (goal : Nat) (f : Nat → St XR)
    (h0 : f 0 = init g [] pts) (hst : ∀ n, Step (fin e) goal eikS (f n) (f (n+1))) : False := by
  have hI : ∀ n, AInv X e (f n) := by
    intro n
    induction n with
    | zero => rw [h0]; exact AInv.start X hna hfr he
    | succ n ih => exact ih.step X he (hst n)
  have hf : ∀ n, StepFacts dims g h v (f n) (f (n+1)) := fun n => stepFacts X he (hI n) (hst n)
  have hset : ∀ n x, Active (f n) x → Settles (fun n i => tv (f n).g i) x := by
    intro n
    induction n with
    | zero =>
      intro x hx
      have hx' := (hI 0).act x hx
      obtain ⟨b1, b2, b3, b4, b5, b6, b7, b8, b9, b10⟩ := initPts_spec pts (g, []) (by simp) (by simp)
      rw [h0] at hx
      have hx : x ∈ (pts.foldl initPoint (g, [])).2 := by
        rcases hx with hx | hx
        · exact hx
        · simp [init] at hx
      rcases b7 x hx with h1 | ⟨⟨p, hp, h1⟩, ho⟩
      · simp at h1
      · have h1 : x ∈ g.shape.nbrs p := h1
        rw [X.shape] at h1
        refine settles_nbr X f hI hf hx'.1 hx'.2.1 (nbrs_symm X.fits (X.inside p hp) h1) ?_
        exact ⟨0, 0, fun n _ => ((hI n).src p hp).2⟩
    | succ n ih =>
      intro x hx
      have hx' := (hI (n+1)).act x hx
      by_cases ha : Active (f n) x
      · exact ih x ha
      · obtain ⟨_, y, hy, hxy⟩ := (hf n).activate x hx ha
        exact settles_nbr X f hI hf hx'.1 hx'.2.1 (nbrs_symm X.fits ((hI n).act y hy).1 hxy) (ih y hy)
  obtain ⟨N, hN⟩ := bound_cells (P := fun i N => ∀ n, N ≤ n → ¬ Active (f n) i) (fun i N M hP hNM n hn => hP n (hNM.trans hn)) dims.prod (by
    intro i hi
    by_cases hex : ∃ n, Active (f n) i
    · obtain ⟨n, hn⟩ := hex
      exact settled_inactive f hf (hset n i hn)
    · exact ⟨0, fun n _ hn => hex ⟨n, hn⟩⟩)
  have hnone : ∀ x, ¬ Active (f N) x := fun x hx => hN x ((hI N).act x hx).1 N (le_refl _) hx
  apply (hst N).1
  have hb : (f N).before = [] := by
    rw [List.eq_nil_iff_forall_not_mem]; exact fun x hx => hnone x (Or.inl hx)
  have ha : (f N).after = [] := by
    rw [List.eq_nil_iff_forall_not_mem]; exact fun x hx => hnone x (Or.inr hx)
  exact ⟨ha, Or.inr hb⟩

/-- **C29, termination**: FIM stops, for every grid, every threshold `e ≥ 0` and every goal: it has no infinite run, and from its initial
state it reaches a state where its loop is left. -/
theorem _root_.FMV.C29_FIM_terminates (X : XInput dims g h v pts) (ha : StartsApart dims g pts) (hfr : Fresh g) (e : ℝ) (he : 0 ≤ e)
    (goal : Nat) :
    (¬ ∃ f : Nat → St XR, f 0 = init g [] pts ∧ ∀ n, Step (fin e) goal eikS (f n) (f (n+1))) ∧
    ∃ n s, Steps (Step (fin e) goal eikS) n (init g [] pts) s ∧ Done s := by
  have hno : ¬ ∃ f : Nat → St XR, f 0 = init g [] pts ∧ ∀ n, Step (fin e) goal eikS (f n) (f (n+1)) := by
    rintro ⟨f, h0, hst⟩
    exact no_infinite X (ha.nonAdj X) hfr he goal f h0 hst
  refine ⟨hno, ?_⟩
  by_contra hnd
  push Not at hnd
  apply hno
  let f : Nat → St XR := fun n => (next (fin e) goal eikS)^[n] (init g [] pts)
  have hf : ∀ n, Steps (Step (fin e) goal eikS) n (init g [] pts) (f n) := by
    intro n
    induction n with
    | zero => exact .refl _
    | succ n ih =>
      refine .tail ih ⟨hnd n _ ih, ?_⟩
      show (next (fin e) goal eikS)^[n+1] (init g [] pts) = _
      rw [Function.iterate_succ_apply']
  refine ⟨f, rfl, fun n => ⟨hnd n _ (hf n), ?_⟩⟩
  show (next (fin e) goal eikS)^[n+1] (init g [] pts) = _
  rw [Function.iterate_succ_apply']

/-- **C29** in one statement: FIM without goal stops, and when it does every time is within `N * (2 * COMP_MARGIN + e)` above the exact one. -/
theorem _root_.FMV.C29_FIM_total (X : XInput dims g h v pts) (ha : StartsApart dims g pts) (hfr : Fresh g) (e : ℝ) (he : 0 ≤ e)
    (U : Nat → WithTop ℝ) (hU : X.problem.IsSolution U) (goal : Nat) (hgoal : dims.prod ≤ goal) :
    ∃ n s, Steps (Step (fin e) goal eikS) n (init g [] pts) s ∧ Done s ∧
      ∀ i, i < dims.prod → U i ≤ toT (s.g.value i) ∧ toT (s.g.value i) ≤ U i + ((dims.prod * (2 * eps + e) : ℝ) : WithTop ℝ) := by
  obtain ⟨n, s, hs, hd⟩ := (C29_FIM_terminates X ha hfr e he goal).2
  exact ⟨n, s, hs, hd, fun i hi => C29_FIM_accuracy X ha hfr e he U hU goal hgoal n s hs hd i hi⟩

/-- **The threshold must not be negative**: with `e < 0` no cell ever converges, and FIM does not stop if some free cell other than the
initial points is next to one of them. -/
theorem _root_.FMV.C29_FIM_negative_threshold (X : XInput dims g h v pts) (hfr : Fresh g) (e : ℝ) (he : e < 0) (p x : Nat) (hp : p ∈ pts)
    (hx : x ∉ pts) (ho : g.occ x = false) (hadj : AxisAdjacent ((Shape.mk' dims).idx2coord p) ((Shape.mk' dims).idx2coord x))
    (hxN : x < dims.prod) (goal n : Nat) (s : St XR) (hs : Steps (Step (fin e) goal eikS) n (init g [] pts) s) : ¬ Done s := by
  have hpx : x ∈ (Shape.mk' dims).nbrs p := (axisAdjacent_iff X.fits (X.inside p hp)).2 ⟨hxN, hadj⟩
  obtain ⟨b1, b2, b3, b4, b5, b6, b7, b8, b9, b10⟩ := initPts_spec pts (g, []) (by simp) (by simp)
  have h0 : Active (init g [] pts) x := by
    left
    show x ∈ (pts.foldl initPoint (g, [])).2
    have h1 := b5 x ho ⟨p, hp, by show x ∈ g.shape.nbrs p; rw [X.shape]; exact hpx⟩
    cases hs' : (pts.foldl initPoint (g, [])).1.state x with
    | opn => exact absurd hs' h1
    | narrow =>
      rcases b6 x hs' with h2 | h2
      · have h2 : g.state x = .narrow := h2
        rw [hfr.state] at h2; cases h2
      · exact h2
    | frozen =>
      rcases initPts_frozen pts (g, []) x hs' with h2 | h2
      · have h2 : g.state x = .frozen := h2
        rw [hfr.state] at h2; cases h2
      · exact absurd h2 hx
  have key : Active s x ∧ s.stop = false := by
    refine Steps.inv (I := fun s : St XR => Active s x ∧ s.stop = false) ?_ hs ⟨h0, rfl⟩
    rintro a b ⟨ha, hst⟩ ⟨_, rfl⟩
    unfold next
    split
    · next y rest hy =>
      have hnc : ∀ z : XR, ¬ Arith.le (Arith.abs z) (fin e) = true := by
        intro z hz
        cases z with
        | fin r =>
          have : |r| ≤ e := by simpa [Arith.le, Arith.abs, XR.abs, XR.le] using hz
          linarith [abs_nonneg r]
        | pinf => simp [Arith.le, Arith.abs, XR.abs, XR.le] at hz
        | ninf => simp [Arith.le, Arith.abs, XR.abs, XR.le] at hz
        | nan => simp [Arith.le, Arith.abs, XR.abs, XR.le] at hz
      unfold visit
      dsimp only
      rw [if_neg (hnc _)]
      refine ⟨?_, hst⟩
      rcases ha with ha | ha
      · left; simp [ha]
      · rw [hy] at ha
        rcases List.mem_cons.1 ha with rfl | ha
        · left; simp
        · right; exact ha
    · next hy =>
      refine ⟨?_, hst⟩
      rcases ha with ha | ha
      · right; exact ha
      · rw [hy] at ha; simp at ha
  rintro ⟨h1, h2⟩
  rcases h2 with h2 | h2
  · rw [key.2] at h2; cases h2
  · rcases key.1 with h3 | h3
    · rw [h2] at h3; simp at h3
    · rw [h1] at h3; simp at h3

/-- a 3x3 grid with an obstacle in the middle and starts in two corners -/
noncomputable def exGrid : Grid XR := (Grid.create [3,3] (fin 1) (0,0)).setVelocity 4 (fin 0)

/-- non-vacuity of C29 and of the termination theorem -/
theorem exGrid_ok : XInput [3,3] exGrid 1 (fun _ => 1) [0, 8] ∧ StartsApart [3,3] exGrid [0, 8] ∧ Fresh exGrid ∧ exGrid.occ 4 = true := by
  have hcell : ∀ i, exGrid.cells i = if i = 4 then { (Grid.create (F := XR) [3,3] (fin 1) (0,0)).cells i with occupancy := fin 0 }
      else (Grid.create (F := XR) [3,3] (fin 1) (0,0)).cells i := by
    intro i; unfold exGrid Grid.setVelocity Grid.modify; simp
  refine ⟨⟨⟨by decide, by decide, by decide⟩, by decide, rfl, by decide, one_pos, rfl, ?_⟩, ?_, ⟨?_, ?_, ?_⟩, ?_⟩
  · intro i hi ho
    by_cases h4 : i = 4
    · subst h4
      exfalso
      unfold Grid.occ at ho
      rw [hcell, if_pos rfl] at ho
      have : (0:ℝ) < eps := eps_pos
      simp [Cell.isOccupied, Arith.lt, XR.lt, Arith.margin, this] at ho
    · unfold Grid.vel; rw [hcell, if_neg h4]; rfl
  · intro i hi j hj _ hadj
    obtain ⟨k, h0, h1, h2, h3⟩ := hadj
    simp only [List.mem_cons, List.not_mem_nil, or_false] at hi hj
    have e0 : (Shape.mk' [3,3]).idx2coord 0 = [0,0] := by decide
    have e8 : (Shape.mk' [3,3]).idx2coord 8 = [2,2] := by decide
    rcases hi with rfl | rfl <;> rcases hj with rfl | rfl
    all_goals
      simp only [e0, e8] at *
      match k with
      | 0 => simp at *
      | 1 => simp at *
      | k+2 => simp at *
  · intro i; unfold Grid.value; rw [hcell]; split <;> rfl
  · intro i; unfold Grid.state; rw [hcell]; split <;> rfl
  · intro i; rw [hcell]; split <;> rfl
  · unfold Grid.occ; rw [hcell, if_pos rfl]
    simp [Cell.isOccupied, Arith.lt, XR.lt, Arith.margin, eps_pos]

example (e : ℝ) (he : 0 ≤ e) (goal : Nat) : ∃ n s, Steps (Step (fin e) goal eikS) n (init exGrid [] [0, 8]) s ∧ Done s :=
  (C29_FIM_terminates exGrid_ok.1 exGrid_ok.2.1 exGrid_ok.2.2.1 e he goal).2

end FIM
end FMV
