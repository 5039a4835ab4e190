import Verif.Props.UFMM
import Verif.Lemmas.Prim
/-!
# UFMM does not end for some adjacent initial points (C50)
-/
set_option linter.unusedSectionVars false
set_option linter.unusedVariables false
namespace FMV
open Arith Spec Shape FMM
variable {F : Type} [Arith F]
namespace UFMM

/-! ### a counter that is too high stays too high -/

/-- the invariant `Weak`, and the counter exceeds the number of stored elements by at least `d` -/
structure Leak (d : Nat) (u : St F) : Prop where
  weak : Weak u
  nb : u.q.content.card + d ≤ u.q.nb

theorem leak_relax {eik : Eik F} (hb : BucketFree eik) {u : St F} {d x j : Nat} (I : Leak d u) (hx : u.q.Shows x) (hnb : u.q.nb ≠ 0)
    (hfx : u.g.state x = .frozen) :
    Leak d (relax eik u j) ∧ (relax eik u j).q.Shows x ∧ (relax eik u j).q.nb ≠ 0 ∧ (relax eik u j).g.state x = .frozen ∧ (relax eik u j).stop = u.stop := by
  obtain ⟨w1, w2, w3, w4, w5, _⟩ := I.weak.relax (j := j) (goal := 0) hb hx hnb hfx (heap := u.q.content.toList) (by
    rw [Multiset.coe_toList]; exact Multiset.le_cons_self _ _)
  refine ⟨⟨w1, ?_⟩, w2, w3, w4, w5⟩
  have h0 := I.nb
  rcases relax_cases eik u j with ⟨hsk, e⟩ | ⟨ho, hn, hbt, e⟩ | ⟨ho, hn, hbt, e⟩ | ⟨ho, hn, e⟩ <;> rw [e]
  · exact h0
  · obtain ⟨hbl, hcn⟩ := I.weak.nar j hn
    have := Multiset.card_le_card (increase_le (t := (eik u.g j).1) I.weak.pos hbl hcn)
    dsimp only
    rw [UQ.increase_nb]; omega
  · exact h0
  · dsimp only
    rw [push_content' I.weak.pos, Multiset.card_cons]
    unfold UQ.push; rw [if_neg hnb]
    show _ ≤ u.q.nb + 1
    omega

theorem leak_fold {eik : Eik F} (hb : BucketFree eik) {d x : Nat} : ∀ (l : List Nat) (u : St F), Leak d u → u.q.Shows x → u.q.nb ≠ 0 →
    u.g.state x = .frozen → Leak d (l.foldl (relax eik) u) ∧ (l.foldl (relax eik) u).q.Shows x ∧ (l.foldl (relax eik) u).q.nb ≠ 0 ∧
      (l.foldl (relax eik) u).stop = u.stop := by
  intro l
  induction l with
  | nil => intro u h1 h2 h3 _; exact ⟨h1, h2, h3, rfl⟩
  | cons j l ih =>
    intro u h1 h2 h3 h4
    obtain ⟨a1, a2, a3, a4, a5⟩ := leak_relax hb (j := j) h1 h2 h3 h4
    obtain ⟨b1, b2, b3, b4⟩ := ih _ a1 a2 a3 a4
    exact ⟨b1, b2, b3, b4.trans a5⟩

theorem leak_step {eik : Eik F} (hb : BucketFree eik) {goal d : Nat} {u u' : St F} (I : Leak d u) (hs : Step goal eik u u') : Leak d u' := by
  have hw : Weak u' := by
    obtain ⟨x, _, h, _⟩ := I.weak.step (goal := goal) hb hs (heap := u.q.content.toList) (by rw [Multiset.coe_toList])
    exact h
  obtain ⟨hnd, x, hx, rfl⟩ := hs
  have hS : u.q.top.1.Shows x := hx
  have hk := UQ.settle_keeps u.q
  have hi : u.q.settle.i0 < u.q.size := UQ.advance_i0 _ _ I.weak.pos I.weak.i0
  have hnb : u.q.top.1.nb ≠ 0 := by show u.q.settle.nb ≠ 0; rw [hk.2.2.1]; exact fun h => hnd (Or.inr h)
  have I1 : Leak d ({ u with q := u.q.top.1, g := u.g.setState x .frozen } : St F) := by
    refine ⟨⟨by show 0 < u.q.settle.size; rw [hk.2.1]; exact I.weak.pos, by show u.q.settle.i0 < u.q.settle.size; rw [hk.2.1]; exact hi, ?_⟩, ?_⟩
    · intro j hj
      simp only [Grid.state_setState] at hj
      split at hj
      · cases hj
      · have := I.weak.nar j hj
        rw [bucket_setState]
        refine ⟨by show _ < u.q.settle.size; rw [hk.2.1]; exact this.1, by show _ ∈ u.q.settle.tab _; rw [hk.1]; exact this.2⟩
    · show u.q.settle.content.card + d ≤ u.q.settle.nb
      rw [UQ.settle_content, hk.2.2.1]; exact I.nb
  obtain ⟨L, hS2, hn2, _⟩ := leak_fold hb (u.g.shape.nbrs x) _ I1 hS hnb (by simp [Grid.state_setState])
  generalize hw' : List.foldl (UFMM.relax eik) ({ u with q := u.q.top.1, g := u.g.setState x .frozen } : St F) (u.g.shape.nbrs x) = w at *
  have hexp : expand goal eik { u with q := u.q.top.1 } x = { w with q := w.q.pop, stop := if x = goal then true else w.stop } := by
    rw [← hw']; rfl
  rw [hexp] at hw ⊢
  refine ⟨hw, ?_⟩
  dsimp only
  have hpop : w.q.pop = { w.q with nb := w.q.nb - 1, tab := fun k => if k = w.q.i0 then (w.q.tab k).dropLast else w.q.tab k } := by
    unfold UQ.pop; rw [if_neg hn2, hS2.settle]
  have hlast' : w.q.tab w.q.i0 = (w.q.tab w.q.i0).dropLast ++ [x] := (List.dropLast_append_getLast? x hS2).symm
  have hcs := UQ.content_set (q := w.q) (q' := w.q.pop) (by rw [hpop]) L.weak.i0 (fun b _ hb => by rw [hpop]; simp [hb])
  have ht : w.q.pop.tab w.q.i0 = (w.q.tab w.q.i0).dropLast := by rw [hpop]; simp
  have hxm : ((w.q.tab w.q.i0 : List Nat) : Multiset Nat) = x ::ₘ (((w.q.tab w.q.i0).dropLast : List Nat) : Multiset Nat) := by
    conv_lhs => rw [hlast']
    rw [← Multiset.coe_add, Multiset.coe_singleton, add_comm, Multiset.singleton_add]
  rw [ht, hxm, Multiset.add_cons, ← Multiset.cons_add] at hcs
  have hc' : x ::ₘ w.q.pop.content = w.q.content := add_right_cancel hcs
  have h1 := L.nb
  rw [← hc', Multiset.card_cons] at h1
  have : w.q.pop.nb = w.q.nb - 1 := by rw [hpop]
  omega

/-- with something in the buckets, `top()` finds it, whatever the counter says -/
theorem top_finds {q : UQ F} (hp : 0 < q.size) (hi : q.i0 < q.size) (hne : q.content ≠ 0) : ∃ x, q.top.2 = some x := by
  obtain ⟨e, he⟩ := Multiset.exists_mem_of_ne_zero hne
  obtain ⟨b, hb, heb⟩ := UQ.mem_content.1 he
  have h : q.settle.tab q.settle.i0 ≠ [] := by
    apply UQ.advance_finds ((b + q.size - q.i0) % q.size) q.size q (Nat.mod_lt _ hp).le hp hi
    have : (q.i0 + (b + q.size - q.i0) % q.size) % q.size = b := by
      rw [Nat.add_mod_mod]
      have h2 : q.i0 + (b + q.size - q.i0) = b + q.size := by omega
      rw [h2, Nat.add_mod_right, Nat.mod_eq_of_lt hb]
    rw [this]
    intro h0
    rw [h0] at heb; simp at heb
  exact ⟨_, List.getLast?_eq_some_getLast h⟩

/-- a state from which the loop of `top()` never finds a non-empty bucket, although the main loop has not ended -/
def Hangs (u : St F) : Prop := ¬ Done u ∧ ∀ m, (u.q.advance m).tab (u.q.advance m).i0 = []

/-- once the counter is too high, a run without goal does not end: it comes to a `top()` that loops for ever -/
theorem leak_hangs {dims : List Nat} {g : Grid F} {pts : List Nat} (hin : Input dims g pts) (hop : ∀ i, g.state i = .opn)
    {size : Nat} (hs : 0 < size) (inc : F) (ub : F → Nat) {goal : Nat} (hg : dims.prod ≤ goal) {n : Nat} {u : St F}
    (h : Steps (Step goal eikS) n (init g (UQ.create size inc ub) pts) u) {d : Nat} (I : Leak (d+1) u) :
    ∃ m u', Steps (Step goal eikS) m (init g (UQ.create size inc ub) pts) u' ∧ Hangs u' := by
  have hstop : ∀ n u, Steps (Step goal eikS) n (init g (UQ.create size inc ub) pts) u → u.stop = false := by
    intro n u h
    obtain ⟨heap, hc, hsim⟩ := simulates_weak hop hs h
    by_contra hc'
    have hst : u.stop = true := by simpa using hc'
    have hst' : ∀ (n : Nat) (s : FMM.St F), Steps (FMM.StepLib (fcfg goal)) n (FMM.init (fcfg goal) g.nob [] pts) s → s.stop = false :=
      fun n s h => FMM.stop_no_goal (cfg := fcfg goal) (g := g.nob) ⟨hin.fits, hin.shape, hin.inside⟩ hg (h.mono (fun _ _ => StepLib.any))
    have := hst' n _ hsim
    rw [hst] at this; cases this
  have hlin := C50_UFMM_linear hin hop hs inc ub goal
  by_contra hno
  push Not at hno
  have key : ∀ k, ∃ u', Steps (Step goal eikS) (n+k) (init g (UQ.create size inc ub) pts) u' ∧ Leak (d+1) u' := by
    intro k
    induction k with
    | zero => exact ⟨u, h, I⟩
    | succ k ih =>
      obtain ⟨u1, h1, I1⟩ := ih
      have hnd : ¬ Done u1 := by
        rintro (h2 | h2)
        · rw [hstop _ _ h1] at h2; cases h2
        · have := I1.nb; omega
      have hne : u1.q.content ≠ 0 := by
        intro h0
        apply hno _ _ h1
        refine ⟨hnd, fun m => ?_⟩
        have hk := UQ.advance_keeps m u1.q
        rw [hk.1]
        exact UQ.content_eq_zero_iff.1 h0 _ (UQ.advance_i0 _ _ I1.weak.pos I1.weak.i0)
      obtain ⟨x, hx⟩ := top_finds I1.weak.pos I1.weak.i0 hne
      have hst : Step goal eikS u1 (expand goal eikS { u1 with q := u1.q.top.1 } x) := ⟨hnd, x, hx, rfl⟩
      exact ⟨_, .tail h1 hst, leak_step eikS_bucketFree I1 hst⟩
  obtain ⟨u', h', _⟩ := key (dims.prod + pts.length + 1)
  have := hlin _ _ h'
  omega

/-! ### the example -/
section example_
open XR

/-- a 3x2 grid of free cells with unit speed -/
noncomputable def hg : Grid XR := Grid.create [3,2] (fin 1) (0,0)

theorem hgX : XInput [3,2] hg 1 (fun _ => 1) [0, 2, 1] :=
  ⟨⟨by decide, by decide, by decide⟩, by decide, rfl, by decide, one_pos, rfl, fun _ _ _ => rfl⟩

theorem hg_free (i : Nat) : hg.occ i = false := by
  show decide ((1:ℝ) < XR.eps) = false
  unfold XR.eps; simp; norm_num

/-- what matters of the state: arrival times, labels, buckets, and the bucket number of cell 1 -/
structure Is (ub : XR → Nat) (u : St XR) (T : Nat → XR) (st : Nat → FMState) (tab : Nat → List Nat) (nb : Nat) : Prop where
  map : SameMap hg u.g
  val : ∀ i, u.g.value i = T i
  state : ∀ i, u.g.state i = st i
  tab : ∀ b, u.q.tab b = tab b
  size : u.q.size = 1000
  nb : u.q.nb = nb
  t0 : u.q.t0 = fin 0
  i0 : u.q.i0 = 0
  inc : u.q.incMax = fin 2
  ub : u.q.ub = ub

theorem Is.eik {ub : XR → Nat} {u : St XR} {T st tab nb} (I : Is ub u T st tab nb) (hT : ∀ i, GoodT (T i)) {j : Nat} (hj : j < 6) :
    (eikS u.g j).1 = ofT (upd 1 (toT (T j)) (mins (Shape.mk' [3,2]) (fun i => toT (T i)) j)) := by
  have hg' : GoodG u.g := fun i => by rw [I.val]; exact hT i
  have := hgX.eik_eq I.map hg' (i := j) hj (hg_free j)
  rw [this]
  have e : tv u.g = fun i => toT (T i) := by funext i; unfold tv; rw [I.val]
  rw [e]; simp

theorem bucket_fin {ub : XR → Nat} {u : St XR} {T st tab nb} (I : Is ub u T st tab nb) : u.q.bucketOf (fin 1) = 500 := by
  unfold UQ.bucketOf UQ.rawIdx
  rw [I.t0, I.size, I.inc, I.i0]
  have : Arith.div (Arith.mul (Arith.sub (fin 1) (fin 0)) (Arith.ofNat 1000)) (fin 2) = fin 500 := by
    show XR.div (XR.mul (XR.add (fin 1) (XR.neg (fin 0))) (fin _)) (fin 2) = _
    simp only [XR.neg, XR.add, XR.mul, XR.div]
    norm_num
  rw [this]
  dsimp only
  have h2 : (floorU32 (fin 500) : Option Nat) = some 500 := by
    show (if 0 ≤ ⌊(500:ℝ)⌋ ∧ ⌊(500:ℝ)⌋ < 4294967296 then some ⌊(500:ℝ)⌋.toNat else none) = some 500
    have : ⌊(500:ℝ)⌋ = 500 := by exact_mod_cast Int.floor_natCast (R := ℝ) 500
    rw [this]; simp
  rw [h2]; rfl

theorem bucket_inf {ub : XR → Nat} (hub : ub pinf = 0) {u : St XR} {T st tab nb} (I : Is ub u T st tab nb) : u.q.bucketOf pinf = 0 := by
  unfold UQ.bucketOf UQ.rawIdx
  rw [I.t0, I.size, I.inc, I.i0, I.ub]
  have : Arith.div (Arith.mul (Arith.sub pinf (fin 0)) (Arith.ofNat 1000)) (fin 2) = pinf := by
    show XR.div (XR.mul (XR.add pinf (XR.neg (fin 0))) (fin _)) (fin 2) = _
    simp only [XR.neg, XR.add, XR.mul, XR.div, XR.infSign]
    norm_num
  rw [this]
  dsimp only
  have h2 : (floorU32 pinf : Option Nat) = none := rfl
  rw [h2]
  show ((if 1000 ≤ (ub pinf) then _ else (ub pinf)) + 0) % 1000 = 0
  rw [hub]; rfl

/-- a new cell is queued -/
theorem Is.push {ub : XR → Nat} {u : St XR} {T st tab nb} (I : Is ub u T st tab nb) {j : Nat} (hs : st j = .opn) (hnb : nb ≠ 0) {t : XR}
    (ht : (eikS u.g j).1 = t) {b : Nat} (hb : u.q.bucketOf t = b) :
    Is ub (relax eikS u j) (fun i => if i = j then t else T i) (fun i => if i = j then .narrow else st i)
      (fun k => if k = b then j :: tab k else tab k) (nb + 1) ∧
    (∀ i, ((relax eikS u j).g.cells i).bucket = if i = j then b else (u.g.cells i).bucket) ∧ (relax eikS u j).stop = u.stop := by
  have hnb' : u.q.nb ≠ 0 := by rw [I.nb]; exact hnb
  rcases relax_cases eikS u j with ⟨hsk, e⟩ | ⟨ho, hn, hbt, e⟩ | ⟨ho, hn, hbt, e⟩ | ⟨ho, hn, e⟩
  · rw [SameMap.occ_eq I.map, hg_free, I.state, hs] at hsk
    rcases hsk with h | h <;> cases h
  · rw [I.state, hs] at hn; cases hn
  · rw [I.state, hs] at hn; cases hn
  · rw [e, ht]
    have hp : u.q.push j t = (({ u.q with nb := u.q.nb + 1 } : UQ XR).cons b j, b) := by
      unfold UQ.push; rw [if_neg hnb', hb]
    rw [hp]
    refine ⟨⟨?_, ?_, ?_, ?_, I.size, by show u.q.nb + 1 = _; rw [I.nb], I.t0, I.i0, I.inc, I.ub⟩, ?_, rfl⟩
    · exact (((I.map.trans (sameMap_setScratch _ _)).trans (sameMap_setState _ _ _)).trans (sameMap_setValue _ _ _)).trans (sameMap_setBucket _ _ _)
    · intro i
      show Grid.value (Grid.setBucket _ _ _) i = _
      rw [Grid.value_setBucket, Grid.value_setValue, Grid.value_setState]
      split
      · rfl
      · exact I.val i
    · intro i
      show Grid.state (Grid.setBucket _ _ _) i = _
      rw [Grid.state_setBucket, Grid.state_setValue, Grid.state_setState]
      split
      · rfl
      · exact I.state i
    · intro k
      show (if k = b then j :: u.q.tab k else u.q.tab k) = _
      rw [I.tab]
    · intro i
      dsimp only
      rw [cells_setBucket]
      split
      · rfl
      · rw [bucket_setValue, bucket_setState]; rfl

/-- a queued cell gets a smaller time and another bucket -/
theorem Is.move {ub : XR → Nat} {u : St XR} {T st tab nb} (I : Is ub u T st tab nb) {j : Nat} (hs : st j = .narrow) {t : XR}
    (ht : (eikS u.g j).1 = t) (hbt : better t (T j) = true) {b b0 : Nat} (hb : u.q.bucketOf t = b) (hb0 : (u.g.cells j).bucket = b0) (hne : b ≠ b0) :
    Is ub (relax eikS u j) (fun i => if i = j then t else T i) st
      (fun k => if k = b then j :: tab k else if k = b0 then (tab k).filter (· ≠ j) else tab k) nb ∧ (relax eikS u j).stop = u.stop := by
  rcases relax_cases eikS u j with ⟨hsk, e⟩ | ⟨ho, hn, hbt', e⟩ | ⟨ho, hn, hbt', e⟩ | ⟨ho, hn, e⟩
  · rw [SameMap.occ_eq I.map, hg_free, I.state, hs] at hsk
    rcases hsk with h | h <;> cases h
  · rw [e, ht, hb0]
    refine ⟨⟨?_, ?_, ?_, ?_, ?_, by rw [UQ.increase_nb]; exact I.nb, ?_, ?_, ?_, ?_⟩, rfl⟩
    · exact ((I.map.trans (sameMap_setScratch _ _)).trans (sameMap_setValue _ _ _)).trans (sameMap_setBucket _ _ _)
    · intro i
      show Grid.value (Grid.setBucket _ _ _) i = _
      rw [Grid.value_setBucket, Grid.value_setValue]
      split
      · rfl
      · exact I.val i
    · intro i
      show Grid.state (Grid.setBucket _ _ _) i = _
      rw [Grid.state_setBucket, Grid.state_setValue]
      exact I.state i
    · intro k
      show (u.q.increase j b0 t).1.tab k = _
      rw [UQ.increase_tab, hb, if_neg hne, I.tab]
    · rw [UQ.increase_size]; exact I.size
    · rw [UQ.increase_t0]; exact I.t0
    · rw [UQ.increase_i0]; exact I.i0
    · show (u.q.increase j b0 t).1.incMax = _
      unfold UQ.increase; dsimp only; split <;> exact I.inc
    · show (u.q.increase j b0 t).1.ub = _
      unfold UQ.increase; dsimp only; split <;> exact I.ub
  · rw [ht, I.val, hbt] at hbt'; cases hbt'
  · rw [I.state, hs] at hn; cases hn

/-- the popped cell is labelled -/
theorem Is.freeze {ub : XR → Nat} {u : St XR} {T st tab nb} (I : Is ub u T st tab nb) (x : Nat) :
    Is ub ({ u with g := u.g.setState x .frozen } : St XR) T (fun i => if i = x then .frozen else st i) tab nb := by
  refine ⟨I.map.trans (sameMap_setState _ _ _), fun i => ?_, fun i => ?_, I.tab, I.size, I.nb, I.t0, I.i0, I.inc, I.ub⟩
  · show Grid.value (Grid.setState _ _ _) i = _
    rw [Grid.value_setState]; exact I.val i
  · show Grid.state (Grid.setState _ _ _) i = _
    rw [Grid.state_setState]
    split
    · rfl
    · exact I.state i

/-- the popped cell is taken from the queue -/
theorem Is.pop {ub : XR → Nat} {u : St XR} {T st tab nb} (I : Is ub u T st tab nb) (hnb : nb ≠ 0) (hne : tab 0 ≠ []) (b : Bool) :
    Is ub ({ u with q := u.q.pop, stop := b } : St XR) T st (fun k => if k = 0 then (tab k).dropLast else tab k) (nb - 1) := by
  have hp : u.q.pop = { u.q with nb := u.q.nb - 1, tab := fun k => if k = u.q.i0 then (u.q.tab k).dropLast else u.q.tab k } := by
    have hs : u.q.settle = u.q := UQ.advance_stay _ _ (by rw [I.i0, I.tab]; exact hne)
    unfold UQ.pop; rw [if_neg (by rw [I.nb]; exact hnb), hs]
  rw [hp]
  refine ⟨I.map, I.val, I.state, fun k => ?_, I.size, by show u.q.nb - 1 = _; rw [I.nb], I.t0, I.i0, I.inc, I.ub⟩
  show (if k = u.q.i0 then (u.q.tab k).dropLast else u.q.tab k) = _
  rw [I.i0, I.tab]

theorem Is.congr {ub : XR → Nat} {u : St XR} {T T' st st' tab tab'} {nb nb' : Nat} (I : Is ub u T st tab nb) (h1 : ∀ i, T i = T' i) (h2 : ∀ i, st i = st' i)
    (h3 : ∀ k, tab k = tab' k) (h4 : nb = nb') : Is ub u T' st' tab' nb' :=
  ⟨I.map, fun i => (I.val i).trans (h1 i), fun i => (I.state i).trans (h2 i), fun k => (I.tab k).trans (h3 k), I.size, I.nb.trans h4, I.t0, I.i0, I.inc, I.ub⟩

theorem eikR_zero : eikR 1 [0] = ((1:ℝ) : WithTop ℝ) := by
  show ((loopR 1 [0] [] : ℝ) : WithTop ℝ) = _
  have : loopR 1 [0] [] = 1 := by
    unfold loopR
    rw [ndR_one (by norm_num)]; norm_num
  rw [this]

theorem upd_l {Ti : WithTop ℝ} (h : Ti = ⊤) : upd 1 Ti [⊤, ((0:ℝ):WithTop ℝ)] = ((1:ℝ) : WithTop ℝ) := by
  subst h
  unfold upd
  rw [usableT_cons_top, usableT_cons_coe, if_pos (WithTop.coe_lt_top _), usableT_nil, eikR_zero]

theorem upd_r {Ti : WithTop ℝ} (h : Ti = ⊤) : upd 1 Ti [((0:ℝ):WithTop ℝ), ⊤] = ((1:ℝ) : WithTop ℝ) := by
  subst h
  unfold upd
  rw [usableT_cons_coe, if_pos (WithTop.coe_lt_top _), usableT_cons_top, usableT_nil, eikR_zero]

/-- arrival times, one per cell -/
noncomputable def times (l : List XR) : Nat → XR := fun i => l.getD i pinf

theorem times_good {l : List XR} (h : ∀ x ∈ l, GoodT x) (i : Nat) : GoodT (times l i) := by
  unfold times
  rw [List.getD_eq_getElem?_getD]
  by_cases hi : i < l.length
  · rw [List.getElem?_eq_getElem hi]; exact h _ (List.getElem_mem hi)
  · rw [List.getElem?_eq_none (by omega)]; exact Or.inl rfl

theorem good0 : GoodT (fin 0) := Or.inr ⟨0, le_refl _, rfl⟩
theorem good1 : GoodT (fin 1) := Or.inr ⟨1, zero_le_one, rfl⟩
theorem goodI : GoodT pinf := Or.inl rfl

theorem mins_hg (l : List XR) (i : Nat) : mins (Shape.mk' [3,2]) (fun i => toT (times l i)) i =
    [dimMin (Shape.mk' [3,2]) (fun i => toT (times l i)) i 0, dimMin (Shape.mk' [3,2]) (fun i => toT (times l i)) i 1] := rfl

/-- the queue and the labels after two iterations: cell 1, pushed twice, has been filtered out twice and counted once -/
theorem hang_run (ub : XR → Nat) (hub : ub pinf = 0) :
    ∃ u, Steps (Step noGoal eikS) 2 (init hg (UQ.create 1000 (fin 2) ub) [0, 2, 1]) u ∧
      Is ub u (times [fin 0, fin 1, fin 0, fin 1, pinf, fin 1]) (fun i => [FMState.frozen, .narrow, .frozen, .narrow, .opn, .narrow].getD i .opn)
        (fun k => if k = 500 then [5, 1, 3] else []) 4 := by
  -- the start
  have I0 : Is ub (init hg (UQ.create 1000 (fin 2) ub) [0, 2, 1]) (times [fin 0, fin 0, fin 0]) (fun _ => .opn)
      (fun k => if k = 0 then [1, 2, 0] else []) 3 := by
    obtain ⟨q1, q2, q3, q4, q5, q6, q7⟩ := init_q hg (size := 1000) (by norm_num) (fin 2) ub [0,2,1] (zeroFirst_exact (by norm_num) ub _)
    obtain ⟨g1, g2, g3, g4, g5⟩ := init_g hg (UQ.create 1000 (fin 2) ub) [0,2,1]
    refine ⟨g1, fun i => ?_, fun i => ?_, fun b => ?_, q3, q2, q5, q4, q6, q7⟩
    · rw [g3]
      match i with
      | 0 => rfl
      | 1 => rfl
      | 2 => rfl
      | i+3 => simp [times]; rfl
    · rw [g2]; rfl
    · rw [q1]; rfl
  have hst0 : (init hg (UQ.create 1000 (fin 2) ub) [0, 2, 1]).stop = false := (init_g hg _ _).2.2.2.2
  generalize hu0 : init hg (UQ.create 1000 (fin 2) ub) [0, 2, 1] = u0 at *
  -- first iteration
  have hsh0 : u0.q.Shows 0 := by unfold UQ.Shows; rw [I0.i0, I0.tab]; rfl
  have hnd0 : ¬ Done u0 := by
    rintro (h | h)
    · rw [hst0] at h; cases h
    · rw [I0.nb] at h; cases h
  have J1 := I0.freeze 0
  generalize hv1 : ({ u0 with g := u0.g.setState 0 .frozen } : St XR) = v1 at J1
  have e1 : (eikS v1.g 1).1 = pinf := by
    rw [J1.eik (times_good (by simp [good0])) (by norm_num)]
    rw [(upd_eq_top_iff one_pos).2, ofT_top]
    intro m hm
    right
    show ((0:ℝ) : WithTop ℝ) ≤ m
    refine _root_.FMV.XInput.mins_nn (fun k => ?_) _ m hm
    exact (times_good (by simp [good0]) k).toT_nonneg
  obtain ⟨J2, hb2, hs2⟩ := J1.push (j := 1) rfl (by norm_num) e1 (bucket_inf hub J1)
  generalize hv2 : UFMM.relax eikS v1 1 = v2 at J2 hb2 hs2
  have J2' := J2.congr (T' := times [fin 0, pinf, fin 0]) (st' := fun i => [FMState.frozen, .narrow].getD i .opn) (tab' := fun k => if k = 0 then [1,1,2,0] else [])
    (nb' := 4) (fun i => by match i with | 0 => rfl | 1 => rfl | 2 => rfl | i+3 => simp [times])
    (fun i => by match i with | 0 => rfl | 1 => rfl | i+2 => simp) (fun k => by by_cases h : k = 0 <;> simp [h]) rfl
  have e2 : (eikS v2.g 3).1 = fin 1 := by
    rw [J2'.eik (times_good (by simp [good0, goodI])) (by norm_num), mins_hg]
    have h0 : dimMin (Shape.mk' [3,2]) (fun i => toT (times [fin 0, pinf, fin 0] i)) 3 0 = ⊤ := by
      have : (Shape.mk' [3,2]).nbrsDim 3 0 = [4] := by decide
      unfold dimMin; rw [this]; simp [times]
    have h1 : dimMin (Shape.mk' [3,2]) (fun i => toT (times [fin 0, pinf, fin 0] i)) 3 1 = ((0:ℝ) : WithTop ℝ) := by
      have : (Shape.mk' [3,2]).nbrsDim 3 1 = [0] := by decide
      unfold dimMin; rw [this]; simp [times]
    rw [h0, h1, upd_l (by simp [times])]; rfl
  obtain ⟨J3, hb3, hs3⟩ := J2'.push (j := 3) rfl (by norm_num) e2 (bucket_fin J2')
  generalize hv3 : UFMM.relax eikS v2 3 = v3 at J3 hb3 hs3
  have J3' := J3.congr (T' := times [fin 0, pinf, fin 0, fin 1]) (st' := fun i => [FMState.frozen, .narrow, .opn, .narrow].getD i .opn)
    (tab' := fun k => if k = 0 then [1,1,2,0] else if k = 500 then [3] else [])
    (nb' := 5) (fun i => by match i with | 0 => rfl | 1 => rfl | 2 => rfl | 3 => rfl | i+4 => simp [times])
    (fun i => by match i with | 0 => rfl | 1 => rfl | 2 => rfl | 3 => rfl | i+4 => simp)
    (fun k => by by_cases h : k = 0 <;> by_cases h' : k = 500 <;> simp [h, h'] <;> omega) rfl
  have K1 := (J3'.pop (by norm_num) (by simp) v3.stop).congr (T' := times [fin 0, pinf, fin 0, fin 1])
    (st' := fun i => [FMState.frozen, .narrow, .opn, .narrow].getD i .opn)
    (tab' := fun k => if k = 0 then [1,1,2] else if k = 500 then [3] else []) (nb' := 4) (fun _ => rfl) (fun _ => rfl)
    (fun k => by by_cases h : k = 0 <;> simp [h]) rfl
  have hstep1 : Step noGoal eikS u0 ({ v3 with q := v3.q.pop, stop := v3.stop } : St XR) := by
    refine ⟨hnd0, 0, by rw [hsh0.top], ?_⟩
    rw [hsh0.top]
    have hn : u0.g.shape.nbrs 0 = [1, 3] := by rw [I0.map.shape]; exact (by decide : (Shape.mk' [3,2]).nbrs 0 = [1, 3])
    have : List.foldl (UFMM.relax eikS) ({ u0 with q := u0.q, g := u0.g.setState 0 .frozen } : St XR) (u0.g.shape.nbrs 0) = v3 := by
      rw [hn]
      show UFMM.relax eikS (UFMM.relax eikS ({ u0 with g := u0.g.setState 0 .frozen } : St XR) 1) 3 = v3
      rw [hv1, hv2, hv3]
    unfold UFMM.expand
    dsimp only at this ⊢
    rw [this, if_neg (by decide)]
  have hst3 : v3.stop = false := by rw [hs3, hs2, ← hv1]; exact hst0
  have hbk : (v3.g.cells 1).bucket = 0 := by rw [hb3, if_neg (by decide), hb2, if_pos rfl]
  generalize hu1 : ({ v3 with q := v3.q.pop, stop := v3.stop } : St XR) = u1 at K1 hstep1
  have hst1 : u1.stop = false := by rw [← hu1]; exact hst3
  have hbk1 : (u1.g.cells 1).bucket = 0 := by rw [← hu1]; exact hbk
  -- second iteration
  have hsh1 : u1.q.Shows 2 := by unfold UQ.Shows; rw [K1.i0, K1.tab]; rfl
  have hnd1 : ¬ Done u1 := by
    rintro (h | h)
    · rw [hst1] at h; cases h
    · rw [K1.nb] at h; cases h
  have L1 := K1.freeze 2
  generalize hw1 : ({ u1 with g := u1.g.setState 2 .frozen } : St XR) = w1 at L1
  have hbw : (w1.g.cells 1).bucket = 0 := by rw [← hw1]; dsimp only; rw [bucket_setState]; exact hbk1
  have f1 : (eikS w1.g 1).1 = fin 1 := by
    rw [L1.eik (times_good (by simp [good0, goodI, good1])) (by norm_num), mins_hg]
    have h0 : dimMin (Shape.mk' [3,2]) (fun i => toT (times [fin 0, pinf, fin 0, fin 1] i)) 1 0 = ((0:ℝ) : WithTop ℝ) := by
      have : (Shape.mk' [3,2]).nbrsDim 1 0 = [0, 2] := by decide
      unfold dimMin; rw [this]; simp [times]
    have h1 : dimMin (Shape.mk' [3,2]) (fun i => toT (times [fin 0, pinf, fin 0, fin 1] i)) 1 1 = ⊤ := by
      have : (Shape.mk' [3,2]).nbrsDim 1 1 = [4] := by decide
      unfold dimMin; rw [this]; simp [times]
    rw [h0, h1, upd_r (by simp [times])]; rfl
  obtain ⟨L2, hs5⟩ := L1.move (j := 1) rfl f1 (by show better (fin 1) pinf = true; rfl) (bucket_fin L1) hbw (by norm_num)
  generalize hw2 : UFMM.relax eikS w1 1 = w2 at L2 hs5
  have L2' := L2.congr (T' := times [fin 0, fin 1, fin 0, fin 1]) (st' := fun i => [FMState.frozen, .narrow, .frozen, .narrow].getD i .opn)
    (tab' := fun k => if k = 0 then [2] else if k = 500 then [1, 3] else [])
    (nb' := 4) (fun i => by match i with | 0 => rfl | 1 => rfl | 2 => rfl | 3 => rfl | i+4 => simp [times])
    (fun i => by match i with | 0 => rfl | 1 => rfl | 2 => rfl | 3 => rfl | i+4 => simp)
    (fun k => by by_cases h : k = 0 <;> by_cases h' : k = 500 <;> simp [h, h'] <;> omega) rfl
  have f2 : (eikS w2.g 5).1 = fin 1 := by
    rw [L2'.eik (times_good (by simp [good0, good1])) (by norm_num), mins_hg]
    have h0 : dimMin (Shape.mk' [3,2]) (fun i => toT (times [fin 0, fin 1, fin 0, fin 1] i)) 5 0 = ⊤ := by
      have : (Shape.mk' [3,2]).nbrsDim 5 0 = [4] := by decide
      unfold dimMin; rw [this]; simp [times]
    have h1 : dimMin (Shape.mk' [3,2]) (fun i => toT (times [fin 0, fin 1, fin 0, fin 1] i)) 5 1 = ((0:ℝ) : WithTop ℝ) := by
      have : (Shape.mk' [3,2]).nbrsDim 5 1 = [2] := by decide
      unfold dimMin; rw [this]; simp [times]
    rw [h0, h1, upd_l (by simp [times])]; rfl
  obtain ⟨L3, _, hs6⟩ := L2'.push (j := 5) rfl (by norm_num) f2 (bucket_fin L2')
  generalize hw3 : UFMM.relax eikS w2 5 = w3 at L3 hs6
  have L3' := L3.congr (T' := times [fin 0, fin 1, fin 0, fin 1, pinf, fin 1])
    (st' := fun i => [FMState.frozen, .narrow, .frozen, .narrow, .opn, .narrow].getD i .opn)
    (tab' := fun k => if k = 0 then [2] else if k = 500 then [5, 1, 3] else [])
    (nb' := 5) (fun i => by match i with | 0 => rfl | 1 => rfl | 2 => rfl | 3 => rfl | 4 => rfl | 5 => rfl | i+6 => simp [times])
    (fun i => by match i with | 0 => rfl | 1 => rfl | 2 => rfl | 3 => rfl | 4 => rfl | 5 => rfl | i+6 => simp)
    (fun k => by by_cases h : k = 0 <;> by_cases h' : k = 500 <;> simp [h, h'] <;> omega) rfl
  have M := (L3'.pop (by norm_num) (by simp) w3.stop).congr (T' := times [fin 0, fin 1, fin 0, fin 1, pinf, fin 1])
    (st' := fun i => [FMState.frozen, .narrow, .frozen, .narrow, .opn, .narrow].getD i .opn)
    (tab' := fun k => if k = 500 then [5, 1, 3] else []) (nb' := 4) (fun _ => rfl) (fun _ => rfl)
    (fun k => by by_cases h : k = 0 <;> simp [h]) rfl
  have hstep2 : Step noGoal eikS u1 ({ w3 with q := w3.q.pop, stop := w3.stop } : St XR) := by
    refine ⟨hnd1, 2, by rw [hsh1.top], ?_⟩
    rw [hsh1.top]
    have hn : u1.g.shape.nbrs 2 = [1, 5] := by rw [K1.map.shape]; exact (by decide : (Shape.mk' [3,2]).nbrs 2 = [1, 5])
    have : List.foldl (UFMM.relax eikS) ({ u1 with q := u1.q, g := u1.g.setState 2 .frozen } : St XR) (u1.g.shape.nbrs 2) = w3 := by
      rw [hn]
      show UFMM.relax eikS (UFMM.relax eikS ({ u1 with g := u1.g.setState 2 .frozen } : St XR) 1) 5 = w3
      rw [hw1, hw2, hw3]
    unfold UFMM.expand
    dsimp only at this ⊢
    rw [this, if_neg (by decide)]
  exact ⟨_, .tail (.tail (.refl _) hstep1) hstep2, M⟩

end example_

end UFMM

open UFMM XR in
/-- C50, the part that fails: on a 3x2 grid of free cells with the initial points 0, 2 and 1 — cell 1 lies between the other two — and no goal,
UFMM with the default queue reaches a call of `top()` that searches for a non-empty bucket for ever (the conversion of an infinite key,
undefined in C++, is taken to give 0). -/
theorem C50_refuted_adjacent_starts (ub : XR → Nat) (hub : ub pinf = 0) :
    XInput [3,2] hg 1 (fun _ => 1) [0, 2, 1] ∧ (∀ i, hg.occ i = false) ∧
    ∃ n u, Steps (UFMM.Step noGoal eikS) n (UFMM.init hg (UQ.create 1000 (fin 2) ub) [0, 2, 1]) u ∧
      u.stop = false ∧ u.q.nb ≠ 0 ∧ (∀ m, (u.q.advance m).tab (u.q.advance m).i0 = []) := by
  refine ⟨hgX, hg_free, ?_⟩
  obtain ⟨u, h, I⟩ := hang_run ub hub
  have hw : Weak u := by
    refine Steps.inv (I := Weak) (fun a b ha hs => ?_) h (weak_init (fun _ => rfl) (by norm_num) _).1
    obtain ⟨x, _, h, _⟩ := ha.step eikS_bucketFree hs (heap := a.q.content.toList) (by rw [Multiset.coe_toList])
    exact h
  have hc : u.q.content = (([5, 1, 3] : List Nat) : Multiset Nat) := by
    unfold UQ.content
    rw [I.size, Finset.sum_eq_single_of_mem 500 (by simp)]
    · rw [I.tab]; rfl
    · intro b _ hb
      rw [I.tab, if_neg hb]; rfl
  have L : Leak (0+1) u := ⟨hw, by rw [hc, I.nb]; rfl⟩
  obtain ⟨m, u', h', hh⟩ := leak_hangs hgX.input (fun _ => rfl) (by norm_num) (fin 2) ub (by decide) h L
  refine ⟨m, u', h', ?_, ?_, hh.2⟩
  · by_contra hc
    exact hh.1 (Or.inl (by simpa using hc))
  · exact fun hc => hh.1 (Or.inr hc)

end FMV

