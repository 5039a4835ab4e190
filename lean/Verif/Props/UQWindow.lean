import Verif.Props.UQ
import Mathlib.Tactic.NormNum
/-!
# The untidy queue returns almost the smallest key: C30
-/
set_option linter.unusedSectionVars false
set_option linter.unusedVariables false
namespace FMV
open Spec
namespace UQ

theorem _root_.FMV.Spec.WindowHist.hist {n : Nat} {inc : ℝ} {ub : XR → Nat} {b0 : Nat → Nat} {c : Client XR} {M : Finset Nat} {K : Nat → ℝ} {r : ℝ}
    (h : WindowHist n inc ub b0 c M K r) : ∃ born now, Hist n (XR.fin inc) ub b0 c M born now := by
  induction h with
  | create K r => exact ⟨_, _, .create⟩
  | pushFirst e t _ ih => obtain ⟨_, _, h⟩ := ih; exact ⟨_, _, .push e _ h (by simp)⟩
  | push e t _ _ he _ _ ih => obtain ⟨_, _, h⟩ := ih; exact ⟨_, _, .push e _ h he⟩
  | increase e t _ he _ _ ih => obtain ⟨_, _, h⟩ := ih; exact ⟨_, _, .increase e _ h he⟩
  | top x _ hne _ ih => obtain ⟨_, _, h⟩ := ih; exact ⟨_, _, .top h hne⟩
  | pop x _ hne hx ih => obtain ⟨_, _, h⟩ := ih; exact ⟨_, _, .pop x h hx hne⟩
  | clear _ ih => obtain ⟨_, _, h⟩ := ih; exact ⟨_, _, .clear h⟩

/-- how far bucket `b` is ahead of bucket `i` in a circle of `n` -/
def ahead (n i b : Nat) : Nat := (b + n - i) % n

theorem ahead_add {n i d : Nat} (hi : i < n) (hd : d < n) : ahead n i ((d + i) % n) = d := by
  unfold ahead
  rcases Nat.lt_or_ge (d + i) n with h | h
  · rw [Nat.mod_eq_of_lt h, show d + i + n - i = d + n by omega, Nat.add_mod_right, Nat.mod_eq_of_lt hd]
  · rw [Nat.mod_eq_sub_mod h, Nat.mod_eq_of_lt (a := d + i - n) (by omega), show d + i - n + n - i = d by omega, Nat.mod_eq_of_lt hd]

theorem ahead_self {n i : Nat} (hi : i < n) : ahead n i i = 0 := by
  unfold ahead; rw [show i + n - i = n by omega, Nat.mod_self]

theorem ahead_lt {n i b : Nat} (hn : 0 < n) : ahead n i b < n := Nat.mod_lt _ hn

theorem ahead_eq_zero {n i b : Nat} (hi : i < n) (hb : b < n) (h : ahead n i b = 0) : b = i := by
  unfold ahead at h
  rcases Nat.lt_or_ge b i with h1 | h1
  · rw [Nat.mod_eq_of_lt (by omega)] at h; omega
  · rw [show b + n - i = (b - i) + n by omega, Nat.add_mod_right, Nat.mod_eq_of_lt (by omega)] at h; omega

theorem ahead_shift {n i b : Nat} (hi : i < n) (hb : b < n) (h : b ≠ i) : ahead n i b = ahead n ((i + 1) % n) b + 1 := by
  unfold ahead
  rcases Nat.lt_or_ge (i + 1) n with h2 | h2
  · rw [Nat.mod_eq_of_lt h2]
    rcases Nat.lt_or_ge b i with h1 | h1
    · rw [Nat.mod_eq_of_lt (by omega), Nat.mod_eq_of_lt (by omega)]; omega
    · rw [show b + n - i = (b - i) + n by omega, show b + n - (i + 1) = (b - i - 1) + n by omega, Nat.add_mod_right, Nat.add_mod_right,
        Nat.mod_eq_of_lt (by omega), Nat.mod_eq_of_lt (by omega)]; omega
  · have hin : i + 1 = n := by omega
    rw [hin, Nat.mod_self, Nat.sub_zero, Nat.add_mod_right, Nat.mod_eq_of_lt hb, Nat.mod_eq_of_lt (by omega)]; omega

/-- the elements are in the buckets their keys belong to, the first bucket beginning at `τ` -/
def Placed (n : Nat) (δ : ℝ) (M : Finset Nat) (bk : Nat → Nat) (K : Nat → ℝ) (i : Nat) (τ : ℝ) : Prop :=
  ∀ e ∈ M, τ + (ahead n i (bk e) : ℝ) * δ ≤ K e ∧ K e < τ + ((ahead n i (bk e) : ℝ) + 1) * δ

theorem Placed.shift {n : Nat} {δ : ℝ} {M : Finset Nat} {bk : Nat → Nat} {K : Nat → ℝ} {i : Nat} {τ : ℝ} (h : Placed n δ M bk K i τ)
    (hi : i < n) (hb : ∀ e ∈ M, bk e < n) (hne : ∀ e ∈ M, bk e ≠ i) : Placed n δ M bk K ((i + 1) % n) (τ + δ) := by
  intro e he
  obtain ⟨h1, h2⟩ := h e he
  rw [ahead_shift hi (hb e he) (hne e he)] at h1 h2
  push_cast at h1 h2
  constructor <;> linarith

/-- the loop of `top`: it keeps elements placed, and ends with the beginning of the first bucket -/
theorem Placed.advance {n : Nat} {δ : ℝ} {M : Finset Nat} {bk : Nat → Nat} {K : Nat → ℝ} (hn : 0 < n) : ∀ (m : Nat) (q : UQ XR) (τ : ℝ),
    q.size = n → q.i0 < n → q.delta = .fin δ → q.t0 = .fin τ → (∀ e ∈ M, bk e < n) → (∀ e ∈ M, e ∈ q.tab (bk e)) →
    Placed n δ M bk K q.i0 τ → ∃ τ', (q.advance m).t0 = .fin τ' ∧ Placed n δ M bk K (q.advance m).i0 τ' := by
  intro m
  induction m with
  | zero => intro q τ _ _ _ h _ _ hp; exact ⟨τ, h, hp⟩
  | succ m ih =>
    intro q τ hs hi hd h0 hb hm hp
    unfold UQ.advance
    split
    · next hemp =>
      apply ih q.shift (τ + δ) hs
      · show (q.i0 + 1) % q.size < n; rw [hs]; exact Nat.mod_lt _ hn
      · exact hd
      · show Arith.add q.t0 q.delta = _; rw [h0, hd]; rfl
      · exact hb
      · exact hm
      · show Placed n δ M bk K ((q.i0 + 1) % q.size) _
        rw [hs]
        refine hp.shift hi hb ?_
        intro e he h
        have := hm e he
        rw [h, hemp] at this; simp at this
    · exact ⟨τ, h0, hp⟩

/-- the bucket computed for a key inside the window -/
theorem bucketOf_window {n : Nat} (hn : 0 < n) (hn' : n ≤ 4294967296) {inc : ℝ} (hinc : 0 < inc) {q : UQ XR} (hs : q.size = n)
    (hI : q.incMax = .fin inc) {τ t : ℝ} (h0 : q.t0 = .fin τ) (hi : q.i0 < n) (h1 : τ ≤ t) (h2 : t < τ + inc) :
    τ + (ahead n q.i0 (q.bucketOf (.fin t)) : ℝ) * (inc / n) ≤ t ∧ t < τ + ((ahead n q.i0 (q.bucketOf (.fin t)) : ℝ) + 1) * (inc / n) := by
  have hnR : (0 : ℝ) < n := by exact_mod_cast hn
  have hx : Arith.div (Arith.mul (Arith.sub (XR.fin t) q.t0) (Arith.ofNat q.size)) q.incMax = XR.fin ((t - τ) * n / inc) := by
    rw [h0, hI, hs]
    show XR.div (XR.mul (XR.add (XR.fin t) (XR.neg (XR.fin τ))) (XR.fin (((n : Int) : ℝ) / ((1 : Nat) : ℝ)))) (XR.fin inc) = _
    simp only [XR.neg, XR.add, XR.mul, XR.div, if_neg hinc.ne']
    congr 2
    push_cast; ring
  set y := (t - τ) * n / inc with hy
  have hy0 : 0 ≤ y := by rw [hy]; apply div_nonneg (mul_nonneg (by linarith) hnR.le) hinc.le
  have hyn : y < n := by
    rw [hy, div_lt_iff₀ hinc]
    have : t - τ < inc := by linarith
    nlinarith
  have hf0 : 0 ≤ ⌊y⌋ := Int.floor_nonneg.2 hy0
  have hfn : ⌊y⌋ < n := Int.floor_lt.2 (by exact_mod_cast hyn)
  have hraw : q.rawIdx (.fin t) = ⌊y⌋.toNat := by
    unfold UQ.rawIdx
    dsimp only
    rw [hx]
    show (if 0 ≤ ⌊y⌋ ∧ ⌊y⌋ < 4294967296 then some ⌊y⌋.toNat else none).getD _ = _
    rw [if_pos ⟨hf0, by omega⟩]; rfl
  have hlt : ⌊y⌋.toNat < n := by omega
  have hb : q.bucketOf (.fin t) = (⌊y⌋.toNat + q.i0) % n := by
    unfold UQ.bucketOf
    dsimp only
    rw [hraw, hs, if_neg (by omega)]
  rw [hb, ahead_add hi hlt]
  have hc : ((⌊y⌋.toNat : Nat) : ℝ) = (⌊y⌋ : ℝ) := by
    have : ((⌊y⌋.toNat : Nat) : Int) = ⌊y⌋ := Int.toNat_of_nonneg hf0
    exact_mod_cast congrArg (Int.cast : Int → ℝ) this
  rw [hc]
  have hle := Int.floor_le y
  have hlt' := Int.lt_floor_add_one y
  have hty : t - τ = y * (inc / n) := by rw [hy]; field_simp
  have hδ : 0 < inc / n := div_pos hinc hnR
  constructor
  · have := mul_le_mul_of_nonneg_right hle hδ.le; linarith
  · have := mul_lt_mul_of_pos_right hlt' hδ; linarith

/-- invariant of window histories -/
structure WInv (n : Nat) (inc : ℝ) (c : Client XR) (M : Finset Nat) (K : Nat → ℝ) (r : ℝ) : Prop where
  incMax : c.q.incMax = .fin inc
  delta : c.q.delta = .fin (inc / n)
  placed : M ≠ ∅ → ∃ τ, c.q.t0 = .fin τ ∧ τ ≤ r ∧ r < τ + inc / n ∧ Placed n (inc / n) M c.bucket K c.q.i0 τ

theorem push_params (q : UQ F) [Arith F] (e : Nat) (t : F) : (q.push e t).1.incMax = q.incMax ∧ (q.push e t).1.delta = q.delta := by
  unfold UQ.push; split <;> exact ⟨rfl, rfl⟩
theorem increase_params (q : UQ F) [Arith F] (e b : Nat) (t : F) :
    (q.increase e b t).1.incMax = q.incMax ∧ (q.increase e b t).1.delta = q.delta := by
  unfold UQ.increase; dsimp only; split <;> exact ⟨rfl, rfl⟩

theorem WInv.settle {n : Nat} (hn : 0 < n) {inc : ℝ} {c : Client XR} {M : Finset Nat} {K r born now}
    (W : WInv n inc c M K r) (I : HInv n c M born now) (hne : M ≠ ∅) :
    ∃ τ, c.q.settle.t0 = .fin τ ∧ Placed n (inc / n) M c.bucket K c.q.settle.i0 τ := by
  obtain ⟨τ, h0, _, _, hp⟩ := W.placed hne
  exact hp.advance hn c.q.size c.q τ I.size I.i0 W.delta h0 I.lt (fun e he => (I.mem (I.lt e he)).2 ⟨he, rfl⟩)

/-- the element shown is in the first bucket -/
theorem HInv.shown_bucket {n : Nat} (hn : 0 < n) {c : Client XR} {M : Finset Nat} {born now} (I : HInv n c M born now) (hne : M ≠ ∅)
    {x : Nat} (hx : c.shown = some x) : x ∈ M ∧ c.bucket x = c.q.settle.i0 := by
  have hi : c.q.settle.i0 < n := (I.top hn).i0
  have hS : (c.q.settle.tab c.q.settle.i0).getLast? = some x := hx
  have hm : x ∈ c.q.tab c.q.settle.i0 := by
    rw [(settle_keeps c.q).1] at hS
    exact List.mem_of_getLast? hS
  have := (I.mem hi).1 hm
  exact ⟨this.1, this.2.symm⟩

theorem WInv.first {n : Nat} (hn : 0 < n) {inc : ℝ} {c : Client XR} {M : Finset Nat} {K r born now}
    (W : WInv n inc c M K r) (I : HInv n c M born now) (hne : M ≠ ∅) {x : Nat} (hx : c.shown = some x) :
    ∃ τ, c.q.settle.t0 = .fin τ ∧ τ ≤ K x ∧ K x < τ + inc / n ∧ Placed n (inc / n) M c.bucket K c.q.settle.i0 τ := by
  obtain ⟨τ, h0, hp⟩ := W.settle hn I hne
  obtain ⟨hxM, hb⟩ := I.shown_bucket hn hne hx
  obtain ⟨h1, h2⟩ := hp x hxM
  rw [hb, ahead_self (show c.q.settle.i0 < n from (I.top hn).i0)] at h1 h2
  simp only [Nat.cast_zero, zero_mul, add_zero, zero_add, one_mul] at h1 h2
  exact ⟨τ, h0, h1, h2, hp⟩

theorem _root_.FMV.Spec.WindowHist.winv {n : Nat} (hn : 0 < n) (hn' : n ≤ 4294967296) {inc : ℝ} (hinc : 0 < inc) {ub : XR → Nat} {b0 : Nat → Nat}
    {c : Client XR} {M : Finset Nat} {K : Nat → ℝ} {r : ℝ} (h : WindowHist n inc ub b0 c M K r) : WInv n inc c M K r := by
  have hnR : (0 : ℝ) < n := by exact_mod_cast hn
  have hδ : 0 < inc / n := div_pos hinc hnR
  induction h with
  | create K r =>
    refine ⟨rfl, ?_, fun h => absurd rfl h⟩
    show XR.div (XR.fin inc) (XR.fin (((n : Int) : ℝ) / ((1 : Nat) : ℝ))) = _
    have : ((n : Int) : ℝ) / ((1 : Nat) : ℝ) = n := by push_cast; ring
    rw [this]
    show (if (n : ℝ) = 0 then _ else _) = _
    rw [if_neg hnR.ne']
  | @pushFirst c K r e t hw ih =>
    obtain ⟨born, now, hh⟩ := hw.hist
    have I := Hist.inv hn hh
    have hp := push_params c.q e (XR.fin t)
    have hnb : c.q.nb = 0 := by rw [I.nb]; rfl
    refine ⟨hp.1.trans ih.incMax, hp.2.trans ih.delta, fun _ => ⟨t, ?_, le_refl _, by linarith, ?_⟩⟩
    · show (c.q.push e _).1.t0 = _
      unfold UQ.push; rw [if_pos hnb]; rfl
    · intro k hk
      have hk' : k = e := by simpa using hk
      subst hk'
      have hb : (c.push k (XR.fin t)).bucket k = 0 := by
        show (if k = k then (c.q.push k _).2 else _) = 0
        rw [if_pos rfl]; unfold UQ.push; rw [if_pos hnb]
      have hi : (c.push k (XR.fin t)).q.i0 = 0 := by
        show (c.q.push k _).1.i0 = 0
        unfold UQ.push; rw [if_pos hnb]; rfl
      rw [hb, hi, ahead_self hn]; simp only [if_true]
      simp only [Nat.cast_zero, zero_mul, add_zero, zero_add, one_mul]
      exact ⟨le_refl _, by linarith⟩
  | @push c M K r e t hw hne he h1 h2 ih =>
    obtain ⟨born, now, hh⟩ := hw.hist
    have I := Hist.inv hn hh
    have hp := push_params c.q e (XR.fin t)
    have hnb : c.q.nb ≠ 0 := by rw [I.nb]; simpa using hne
    obtain ⟨τ, h0, hr1, hr2, hP⟩ := ih.placed hne
    have hi : (c.push e (XR.fin t)).q.i0 = c.q.i0 := by
      show (c.q.push e _).1.i0 = _
      unfold UQ.push; rw [if_neg hnb]; rfl
    refine ⟨hp.1.trans ih.incMax, hp.2.trans ih.delta, fun _ => ⟨τ, ?_, hr1, hr2, ?_⟩⟩
    · show (c.q.push e _).1.t0 = _
      unfold UQ.push; rw [if_neg hnb]; exact h0
    · intro k hk
      rw [hi]
      by_cases hke : k = e
      · subst hke
        have hb : (c.push k (XR.fin t)).bucket k = c.q.bucketOf (.fin t) := by
          show (if k = k then (c.q.push k _).2 else _) = _
          rw [if_pos rfl]; unfold UQ.push; rw [if_neg hnb]
        rw [hb]; simp only [if_true]
        exact bucketOf_window hn hn' hinc I.size ih.incMax h0 I.i0 (by linarith) (by linarith)
      · have hb : (c.push e (XR.fin t)).bucket k = c.bucket k := if_neg hke
        rw [hb]; simp only [if_neg hke]
        exact hP k ((Finset.mem_insert.1 hk).resolve_left hke)
  | @increase c M K r e t hw he h1 h2 ih =>
    obtain ⟨born, now, hh⟩ := hw.hist
    have I := Hist.inv hn hh
    have hp := increase_params c.q e (c.bucket e) (XR.fin t)
    refine ⟨hp.1.trans ih.incMax, hp.2.trans ih.delta, fun hne => ?_⟩
    obtain ⟨τ, h0, hr1, hr2, hP⟩ := ih.placed hne
    have hi : (c.increase e (XR.fin t)).q.i0 = c.q.i0 := increase_i0 _ _ _ _
    refine ⟨τ, (increase_t0 _ _ _ _).trans h0, hr1, hr2, ?_⟩
    intro k hk
    rw [hi]
    by_cases hke : k = e
    · subst hke
      have hb : (c.increase k (XR.fin t)).bucket k = c.q.bucketOf (.fin t) := by
        show (if k = k then (c.q.increase k _ _).2 else _) = _
        rw [if_pos rfl, increase_bucket]
      rw [hb]; simp only [if_true]
      exact bucketOf_window hn hn' hinc I.size ih.incMax h0 I.i0 (by linarith) (by linarith)
    · have hb : (c.increase e (XR.fin t)).bucket k = c.bucket k := if_neg hke
      rw [hb]; simp only [if_neg hke]
      exact hP k hk
  | @top c M K r x hw hne hx ih =>
    obtain ⟨born, now, hh⟩ := hw.hist
    have I := Hist.inv hn hh
    obtain ⟨τ, h0, h1, h2, hP⟩ := ih.first hn I hne hx
    have k := settle_keeps c.q
    exact ⟨k.2.2.2.2.1.trans ih.incMax, k.2.2.2.1.trans ih.delta, fun _ => ⟨τ, h0, h1, h2, hP⟩⟩
  | @pop c M K r x hw hne hx ih =>
    obtain ⟨born, now, hh⟩ := hw.hist
    have I := Hist.inv hn hh
    obtain ⟨τ, h0, h1, h2, hP⟩ := ih.first hn I hne hx
    have k := settle_keeps c.q
    have hp : c.pop.q = { c.q.settle with nb := c.q.settle.nb - 1, tab := fun k => if k = c.q.settle.i0 then (c.q.settle.tab k).dropLast else c.q.settle.tab k } := by
      show c.q.pop = _
      unfold UQ.pop; rw [if_neg (by rw [I.nb]; simpa using hne)]
    refine ⟨by rw [hp]; exact k.2.2.2.2.1.trans ih.incMax, by rw [hp]; exact k.2.2.2.1.trans ih.delta, fun _ => ⟨τ, by rw [hp]; exact h0, h1, h2, ?_⟩⟩
    intro e he
    rw [hp]
    exact hP e (Finset.mem_of_mem_erase he)
  | clear _ ih => exact ⟨ih.incMax, ih.delta, fun h => absurd rfl h⟩

/-- **C30**: in every history of calls that respects the window, with exact arithmetic, the element shown by `top()` has a key that
exceeds the smallest stored key by less than one bucket width `inc/n`. -/
theorem _root_.FMV.C30_almost_min {n : Nat} (hn : 0 < n) (hn' : n ≤ 4294967296) {inc : ℝ} (hinc : 0 < inc) {ub : XR → Nat} {b0 : Nat → Nat}
    {c : Client XR} {M : Finset Nat} {K : Nat → ℝ} {r : ℝ} (h : WindowHist n inc ub b0 c M K r) {x : Nat} (hx : c.shown = some x) :
    ∀ y ∈ M, K x < K y + inc / n := by
  intro y hy
  have hne : M ≠ ∅ := by rintro rfl; simp at hy
  obtain ⟨born, now, hh⟩ := h.hist
  have hδ : 0 < inc / n := div_pos hinc (by exact_mod_cast hn)
  obtain ⟨τ, _, h1, h2, hP⟩ := (h.winv hn hn' hinc).first hn (Hist.inv hn hh) hne hx
  have h3 := (hP y hy).1
  have : 0 ≤ (ahead n c.q.settle.i0 (c.bucket y) : ℝ) * (inc / n) := mul_nonneg (Nat.cast_nonneg _) hδ.le
  linarith

/-- **C30**: elements whose keys differ by at least one bucket width come out in key order: if `y` is still stored when `x` is shown, then
`y` is not smaller by a bucket width or more; and the reference key never goes back by a bucket width. -/
theorem _root_.FMV.C30_reference {n : Nat} (hn : 0 < n) (hn' : n ≤ 4294967296) {inc : ℝ} (hinc : 0 < inc) {ub : XR → Nat} {b0 : Nat → Nat}
    {c : Client XR} {M : Finset Nat} {K : Nat → ℝ} {r : ℝ} (h : WindowHist n inc ub b0 c M K r) {x : Nat} (hx : c.shown = some x) (hne : M ≠ ∅) :
    r - inc / n < K x := by
  obtain ⟨born, now, hh⟩ := h.hist
  have I := Hist.inv hn hh
  have W := h.winv hn hn' hinc
  have hδ : 0 < inc / n := div_pos hinc (by exact_mod_cast hn)
  obtain ⟨τ, h0, hr1, hr2, hP⟩ := W.placed hne
  have hxM := (I.shown_bucket hn hne hx).1
  have h3 := (hP x hxM).1
  have : 0 ≤ (ahead n c.q.i0 (c.bucket x) : ℝ) * (inc / n) := mul_nonneg (Nat.cast_nonneg _) hδ.le
  linarith

/-! ### The hypotheses are met -/

/-- a history with three elements, one of them re-prioritised: 10 buckets of width 1/5 (window 2) -/
example : ∃ c K r, WindowHist 10 2 (fun _ => 0) (fun _ => 0) c {7, 8, 9} K r ∧ (∃ x, c.shown = some x) ∧ K 8 = 1.2 := by
  have h0 : WindowHist 10 2 (fun _ => 0) (fun _ => 0) _ _ _ _ := .create (fun _ => 0) 0
  have h1 := WindowHist.pushFirst 7 0.5 h0
  have h2 := WindowHist.push 8 1.5 h1 (by simp) (by simp) (by norm_num) (by norm_num)
  have h3 := WindowHist.push 9 2.2 h2 (by simp) (by simp) (by norm_num) (by norm_num)
  have h4 := WindowHist.increase 8 1.2 h3 (by simp) (by norm_num) (by norm_num)
  have he : (insert 9 (insert 8 {7}) : Finset Nat) = {7, 8, 9} := by decide
  rw [he] at h4
  refine ⟨_, _, _, h4, ?_, by simp⟩
  obtain ⟨_, _, hh⟩ := h4.hist
  obtain ⟨x, _, hx⟩ := (C31_bookkeeping (by norm_num) hh).2 (by simp)
  exact ⟨x, hx⟩

/-- Outside the window the claim is false: a key beyond the window is put in the last bucket and can overtake a smaller key.
Two elements whose keys are 10 and 9, in a queue with 10 buckets of width 1/5: the one with key 10 is shown first. -/
theorem _root_.FMV.C30_window_needed :
    ∃ c : Client XR, (∃ born now, Hist 10 (XR.fin 2) (fun _ => 0) (fun _ => 0) c {8, 9} born now) ∧
      c = ((((⟨UQ.create 10 (.fin 2) (fun _ => 0), fun _ => 0⟩ : Client XR).push 7 (.fin 0)).push 8 (.fin 10)).push 9 (.fin 9)).pop ∧
      c.shown = some 8 := by
  have hraw : ∀ (q : UQ XR) (t : ℝ), q.t0 = .fin 0 → q.size = 10 → q.incMax = .fin 2 → q.i0 = 0 → 8 < t → t < 20 → q.bucketOf (.fin t) = 9 := by
    intro q t h0 hs hI hi h1 h2
    have hx : Arith.div (Arith.mul (Arith.sub (XR.fin t) q.t0) (Arith.ofNat q.size)) q.incMax = XR.fin (t * 5) := by
      rw [h0, hI, hs]
      show XR.div (XR.mul (XR.add (XR.fin t) (XR.neg (XR.fin 0))) (XR.fin (((10 : Nat) : Int) / ((1 : Nat) : ℝ)))) (XR.fin 2) = _
      simp only [XR.neg, XR.add, XR.mul, XR.div]
      rw [if_neg (by norm_num)]
      congr 1; push_cast; ring
    have hf0 : 40 ≤ ⌊t * 5⌋ := Int.le_floor.2 (by push_cast; linarith)
    have hf1 : ⌊t * 5⌋ < 100 := Int.floor_lt.2 (by push_cast; linarith)
    have hr : q.rawIdx (.fin t) = ⌊t * 5⌋.toNat := by
      unfold UQ.rawIdx
      dsimp only
      rw [hx]
      show (if 0 ≤ ⌊t * 5⌋ ∧ ⌊t * 5⌋ < 4294967296 then some ⌊t * 5⌋.toNat else none).getD _ = _
      rw [if_pos ⟨by omega, by omega⟩]; rfl
    unfold UQ.bucketOf
    dsimp only
    rw [hr, hs, hi, if_pos (by omega)]
  let c0 : Client XR := ⟨UQ.create 10 (.fin 2) (fun _ => 0), fun _ => 0⟩
  have H0 : Hist 10 (XR.fin 2) (fun _ => 0) (fun _ => 0) c0 _ _ _ := .create
  have H1 := Hist.push 7 (XR.fin 0) H0 (by simp)
  have H2 := Hist.push 8 (XR.fin 10) H1 (by simp)
  have H3 := Hist.push 9 (XR.fin 9) H2 (by simp)
  let c1 := c0.push 7 (.fin 0)
  have e1 : c1.q.tab = (fun b => if b = 0 then [7] else []) ∧ c1.q.nb = 1 ∧ c1.q.size = 10 ∧ c1.q.i0 = 0 ∧ c1.q.t0 = .fin 0 ∧ c1.q.incMax = .fin 2 :=
    ⟨rfl, rfl, rfl, rfl, rfl, rfl⟩
  let c2 := c1.push 8 (.fin 10)
  have e2 : c2.q.tab = (fun b => if b = 9 then [8] else if b = 0 then [7] else []) ∧ c2.q.nb = 2 ∧ c2.q.size = 10 ∧ c2.q.i0 = 0 ∧
      c2.q.t0 = .fin 0 ∧ c2.q.incMax = .fin 2 := by
    obtain ⟨t, nb, sz, i0, t0, ic⟩ := e1
    have hb := hraw c1.q 10 t0 sz ic i0 (by norm_num) (by norm_num)
    have hq : c2.q = ({ c1.q with nb := c1.q.nb + 1 } : UQ XR).cons 9 8 := by
      show (c1.q.push 8 (.fin 10)).1 = _
      unfold UQ.push; rw [if_neg (by rw [nb]; decide), hb]
    rw [hq]
    refine ⟨?_, rfl, rfl, rfl, t0, ic⟩
    funext b
    rw [cons_tab]
    show (if b = 9 then 8 :: c1.q.tab b else c1.q.tab b) = _
    rw [t]
    by_cases h9 : b = 9
    · subst h9; rfl
    · simp [h9]
  let c3 := c2.push 9 (.fin 9)
  have e3 : c3.q.tab = (fun b => if b = 9 then [9, 8] else if b = 0 then [7] else []) ∧ c3.q.nb = 3 ∧ c3.q.size = 10 ∧ c3.q.i0 = 0 := by
    obtain ⟨t, nb, sz, i0, t0, ic⟩ := e2
    have hb := hraw c2.q 9 t0 sz ic i0 (by norm_num) (by norm_num)
    have hq : c3.q = ({ c2.q with nb := c2.q.nb + 1 } : UQ XR).cons 9 9 := by
      show (c2.q.push 9 (.fin 9)).1 = _
      unfold UQ.push; rw [if_neg (by rw [nb]; decide), hb]
    rw [hq]
    refine ⟨?_, by show c2.q.nb + 1 = 3; rw [nb], sz, i0⟩
    funext b
    rw [cons_tab]
    show (if b = 9 then 9 :: c2.q.tab b else c2.q.tab b) = _
    rw [t]
    by_cases h9 : b = 9
    · subst h9; rfl
    · simp [h9]
  obtain ⟨t, nb, sz, i0⟩ := e3
  have hs : c3.shown = some 7 := by
    have : c3.q.Shows 7 := by unfold Shows; rw [i0, t]; rfl
    unfold Client.shown; rw [this.top]
  have H4 := Hist.pop 7 H3 hs (by simp)
  have hset : ({7, 8, 9} : Finset Nat).erase 7 = {8, 9} := by decide
  have hset' : (insert 9 (insert 8 (insert 7 (∅ : Finset Nat)))) = {7, 8, 9} := by decide
  rw [hset', hset] at H4
  refine ⟨_, ⟨_, _, H4⟩, rfl, ?_⟩
  show c3.pop.shown = some 8
  have hst : c3.q.settle = c3.q := Shows.settle (x := 7) (by unfold Shows; rw [i0, t]; rfl)
  have hp : c3.pop.q = { c3.q with nb := c3.q.nb - 1, tab := fun k => if k = c3.q.i0 then (c3.q.tab k).dropLast else c3.q.tab k } := by
    show c3.q.pop = _
    unfold UQ.pop; rw [if_neg (by rw [nb]; decide), hst]
  have hpt : c3.pop.q.tab = fun b => if b = 9 then [9, 8] else [] := by
    rw [hp]
    funext b
    show (if b = c3.q.i0 then (c3.q.tab b).dropLast else c3.q.tab b) = _
    rw [i0, t]
    by_cases h0 : b = 0
    · subst h0; rfl
    · simp [h0]
  have hpi : c3.pop.q.i0 = 0 := by rw [hp]; exact i0
  have hps : c3.pop.q.size = 10 := by rw [hp]; exact sz
  have I := Hist.inv (by norm_num) H4
  obtain ⟨x, hx, hxs, _⟩ := I.shown (by norm_num) (by simp)
  have hb9 : c3.pop.q.settle.tab c3.pop.q.settle.i0 = [9, 8] := by
    have hne := settle_finds (I.wf (by norm_num)) (by rw [I.content]; simp)
    change c3.pop.q.settle.tab c3.pop.q.settle.i0 ≠ [] at hne
    rw [(settle_keeps _).1, hpt] at hne ⊢
    dsimp only at hne ⊢
    split at hne
    · next h => rw [if_pos h]
    · exact absurd rfl hne
  show (c3.pop.q.settle.tab c3.pop.q.settle.i0).getLast? = some 8
  rw [hb9]; rfl

end UQ
end FMV
