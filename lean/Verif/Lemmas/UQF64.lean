import Verif.Lemmas.F64Err
import Verif.Props.UQWindow
/-! The buckets of the untidy queue in doubles: errors of the bucket computation and of the beginning of the queue. -/
set_option linter.unusedSectionVars false
set_option linter.unusedVariables false
namespace FMV
open XR
variable {R : Rounding}
namespace UQ

/-- the bucket computed for a key near the window; a number between -1 and 0 must be converted to 0 -/
theorem bucketOf_f64 {n : Nat} (hn : 0 < n) (hn' : n ≤ 2^30) {inc : ℝ} (hinc : (2:ℝ)^(-900:ℤ) ≤ inc) (hinc2 : inc ≤ (2:ℝ)^(900:ℤ)) {q : UQ (F64 R)} (hs : q.size = n)
    (hI : q.incMax.1 = .fin inc) {τ t : ℝ} (h0 : q.t0.1 = .fin τ) (hub : ∀ x : F64 R, ∀ r : ℝ, x.1 = .fin r → -1 < r → r < 0 → q.ub x = 0)
    {k : F64 R} (hk : k.1 = .fin t) (h1 : τ - inc / n + 9 * uu * inc < t) (h2 : t ≤ τ + 2 * inc) :
    ∃ r : Nat, r < n ∧ q.bucketOf k = (r + q.i0) % n ∧ (r = 0 ∨ τ + r * (inc / n) - 9 * uu * inc ≤ t) ∧
      (r + 1 = n ∨ t ≤ τ + (r + 1) * (inc / n) + 9 * uu * inc) := by
  have hincp : 0 < inc := lt_of_lt_of_le (zpow_pos (by norm_num) _) hinc
  have hnR : (0 : ℝ) < n := by exact_mod_cast hn
  have hn1 : (1 : ℝ) ≤ n := by exact_mod_cast hn
  have hn30 : (n : ℝ) ≤ 1073741824 := by
    have : n ≤ 1073741824 := hn'
    exact_mod_cast this
  have hu := uu_pos
  have hu1 : 100 * uu ≤ 1 := by unfold uu; norm_num
  have hδ : 0 < inc / n := div_pos hincp hnR
  have hδ1 : inc / n ≤ inc := div_le_self hincp.le hn1
  have pw1 : (2:ℝ)^(-1000:ℤ) ≤ (2:ℝ)^(-900:ℤ) := zpow_le_zpow_right₀ (by norm_num) (by norm_num)
  have pw2 : (2:ℝ)^(900:ℤ) * 2^40 ≤ (2:ℝ)^(1000:ℤ) := by
    have : (2:ℝ)^(900:ℤ) * 2^40 = (2:ℝ)^(940:ℤ) := by
      rw [show ((2:ℝ)^40) = (2:ℝ)^(40:ℤ) by norm_num, ← zpow_add₀ (by norm_num)]; norm_num
    rw [this]; exact zpow_le_zpow_right₀ (by norm_num) (by norm_num)
  have hI40 : inc * 2^40 ≤ (2:ℝ)^(1000:ℤ) := le_trans (mul_le_mul_of_nonneg_right hinc2 (by norm_num)) pw2
  -- the three rounded operations
  have hd : |t + -τ| ≤ 2 * inc := by rw [abs_le]; constructor <;> nlinarith
  obtain ⟨a, ha, hae⟩ := rd_err R hd (by linarith) (le_trans (by linarith) hI40)
  have hab : |a| ≤ 3 * inc := by
    have := abs_le.1 hae
    have := abs_le.1 hd
    rw [abs_le]; constructor <;> nlinarith
  have ham : |a * n| ≤ 3 * inc * n := by
    rw [abs_mul, abs_of_pos hnR]; exact mul_le_mul_of_nonneg_right hab hnR.le
  have h3a : inc ≤ 3 * inc * n := by nlinarith
  have h3b : 3 * inc * n ≤ inc * 2^40 := by nlinarith
  obtain ⟨m, hm, hme⟩ := rd_err R ham (by linarith) (le_trans h3b hI40)
  have hmb : |m| ≤ 4 * inc * n := by
    have := abs_le.1 hme
    have := abs_le.1 ham
    have h5 : uu * (3 * inc * n) ≤ inc * n := by
      have : 0 < inc * n := by positivity
      nlinarith
    rw [abs_le]; constructor <;> linarith
  have hmd : |m / inc| ≤ 4 * n := by
    rw [abs_div, abs_of_pos hincp, div_le_iff₀ hincp]; linarith
  have p1 : (2:ℝ)^(-1000:ℤ) ≤ 1 := by
    rw [show (1:ℝ) = (2:ℝ)^(0:ℤ) by norm_num]; exact zpow_le_zpow_right₀ (by norm_num) (by norm_num)
  have p2 : (2:ℝ)^(40:ℤ) ≤ (2:ℝ)^(1000:ℤ) := zpow_le_zpow_right₀ (by norm_num) (by norm_num)
  have p2' : (2:ℝ)^(40:ℤ) = 1099511627776 := by norm_num
  obtain ⟨y, hy, hye⟩ := rd_err R hmd (by linarith) (le_trans (by rw [p2']; linarith) p2)
  -- the computed number
  have hof : (Arith.ofNat n : F64 R).1 = .fin (n : ℝ) := by
    show R.rd (((n : Int) : ℝ) / ((1 : Nat) : ℝ)) = _
    have : ((n : Int) : ℝ) / ((1 : Nat) : ℝ) = n := by push_cast; ring
    rw [this]
    exact R.exact _ (isDouble_nat (by omega))
  have hx : (Arith.div (Arith.mul (Arith.sub k q.t0) (Arith.ofNat q.size)) q.incMax : F64 R).1 = XR.fin y := by
    have e1 : (Arith.sub k q.t0 : F64 R).1 = .fin a := by
      show (F64.rnd R (XR.add k.1 (XR.neg q.t0.1))).1 = _
      rw [hk, h0]; exact ha
    have e2 : (Arith.mul (Arith.sub k q.t0) (Arith.ofNat q.size) : F64 R).1 = .fin m := by
      show (F64.rnd R (XR.mul (Arith.sub k q.t0 : F64 R).1 (Arith.ofNat q.size : F64 R).1)).1 = _
      rw [e1, hs, hof]; exact hm
    show (F64.rnd R (XR.div (Arith.mul (Arith.sub k q.t0) (Arith.ofNat q.size) : F64 R).1 q.incMax.1)).1 = _
    rw [e2, hI]
    simp only [XR.div, if_neg hincp.ne']
    exact hy
  -- its error
  have herr : |y - (t - τ) * n / inc| ≤ 9 * uu * n := by
    have e1 : |m / inc - a * n / inc| ≤ 3 * uu * n := by
      rw [← sub_div, abs_div, abs_of_pos hincp, div_le_iff₀ hincp]
      calc |m - a * n| ≤ uu * (3 * inc * n) := hme
        _ = 3 * uu * n * inc := by ring
    have e2 : |a * n / inc - (t - τ) * n / inc| ≤ 2 * uu * n := by
      have : a * n / inc - (t - τ) * n / inc = (a - (t + -τ)) * n / inc := by ring
      rw [this, abs_div, abs_of_pos hincp, div_le_iff₀ hincp, abs_mul, abs_of_pos hnR]
      calc |a - (t + -τ)| * n ≤ uu * (2 * inc) * n := mul_le_mul_of_nonneg_right hae hnR.le
        _ = 2 * uu * n * inc := by ring
    have e3 := abs_le.1 e1
    have e4 := abs_le.1 e2
    have e5 := abs_le.1 hye
    rw [abs_le]; constructor <;> linarith
  have herr' := abs_le.1 herr
  set z := (t - τ) * n / inc with hz
  have htz : t - τ = z * (inc / n) := by rw [hz]; field_simp
  have hnδ : (n : ℝ) * (inc / n) = inc := by field_simp
  have hzlo : -1 + 9 * uu * n < z := by
    have h3 : (-1 + 9 * uu * n) * (inc / n) < z * (inc / n) := by
      rw [← htz]
      have : (-1 + 9 * uu * n) * (inc / n) = -(inc / n) + 9 * uu * (n * (inc / n)) := by ring
      rw [this, hnδ]; linarith
    exact lt_of_mul_lt_mul_right h3 hδ.le
  have hyhi : y ≤ 4 * n + 4 * n := by
    have := abs_le.1 hye
    have := abs_le.1 hmd
    nlinarith
  have hylo : -1 < y := by linarith
  have e9 : 9 * uu * n * (inc / n) = 9 * uu * inc := by
    have : 9 * uu * n * (inc / n) = 9 * uu * (n * (inc / n)) := by ring
    rw [this, hnδ]
  have lowZ : ∀ r : ℝ, r ≤ y → τ + r * (inc / n) - 9 * uu * inc ≤ t := by
    intro r hr
    have h3 : (r - 9 * uu * n) * (inc / n) ≤ z * (inc / n) := mul_le_mul_of_nonneg_right (by linarith) hδ.le
    rw [← htz, sub_mul, e9] at h3
    linarith
  have upZ : ∀ r : ℝ, y ≤ r → t ≤ τ + r * (inc / n) + 9 * uu * inc := by
    intro r hr
    have h3 : z * (inc / n) ≤ (r + 9 * uu * n) * (inc / n) := mul_le_mul_of_nonneg_right (by linarith) hδ.le
    rw [← htz, add_mul, e9] at h3
    linarith
  -- the bucket
  have hraw : q.rawIdx k = if 0 ≤ ⌊y⌋ then ⌊y⌋.toNat else 0 := by
    unfold UQ.rawIdx
    dsimp only
    show (Arith.floorU32 (Arith.div (Arith.mul (Arith.sub k q.t0) (Arith.ofNat q.size)) q.incMax : F64 R).1).getD _ = _
    rw [hx]
    show (if 0 ≤ ⌊y⌋ ∧ ⌊y⌋ < 4294967296 then some ⌊y⌋.toNat else none).getD _ = _
    have hfl : ⌊y⌋ < 8589934592 + 1 := by
      rw [Int.floor_lt]; push_cast; linarith
    by_cases hf : 0 ≤ ⌊y⌋
    · rw [if_pos hf]
      by_cases hf2 : ⌊y⌋ < 4294967296
      · rw [if_pos ⟨hf, hf2⟩]; rfl
      · exfalso
        -- the key is at most twice the window away
        have : z ≤ 2 * n := by
          have h3 : z * (inc / n) ≤ (2 * n) * (inc / n) := by rw [← htz, mul_assoc, hnδ]; linarith
          exact le_of_mul_le_mul_right h3 hδ
        have hy4 : y < 4294967296 := by
          have : 9 * uu * n ≤ n := by nlinarith
          linarith
        exact hf2 (Int.floor_lt.2 (by exact_mod_cast hy4))
    · rw [if_neg hf, if_neg (fun h => hf h.1)]
      exact hub _ y hx hylo (by
        by_contra hc
        exact hf (Int.floor_nonneg.2 (not_lt.1 hc)))
  unfold UQ.bucketOf
  dsimp only
  rw [hraw, hs]
  by_cases hf : 0 ≤ ⌊y⌋
  · rw [if_pos hf]
    have hc : ((⌊y⌋.toNat : Nat) : ℝ) = (⌊y⌋ : ℝ) := by
      have : ((⌊y⌋.toNat : Nat) : Int) = ⌊y⌋ := Int.toNat_of_nonneg hf
      exact_mod_cast congrArg (Int.cast : Int → ℝ) this
    have hle := Int.floor_le y
    have hlt := Int.lt_floor_add_one y
    by_cases hbig : n ≤ ⌊y⌋.toNat
    · rw [if_pos hbig]
      have hny : (n : ℝ) ≤ y := by
        have : (n : ℝ) ≤ ((⌊y⌋.toNat : Nat) : ℝ) := by exact_mod_cast hbig
        linarith
      refine ⟨n - 1, by omega, rfl, Or.inr ?_, Or.inl (by omega)⟩
      have : ((n - 1 : Nat) : ℝ) ≤ y := by
        have : ((n - 1 : Nat) : ℝ) ≤ n := by exact_mod_cast Nat.sub_le _ _
        linarith
      exact lowZ _ this
    · rw [if_neg hbig]
      exact ⟨⌊y⌋.toNat, by omega, rfl, Or.inr (lowZ _ (by rw [hc]; exact hle)), Or.inr (upZ _ (by rw [hc]; exact hlt.le))⟩
  · rw [if_neg hf, if_neg (by omega)]
    refine ⟨0, hn, by rw [Nat.zero_add], Or.inl rfl, Or.inr ?_⟩
    have hy0 : y < 0 := by
      by_contra hc
      exact hf (Int.floor_nonneg.2 (not_lt.1 hc))
    exact upZ _ (by push_cast; linarith)

/-- the elements are in the buckets their keys belong to, up to `ε` per bucket that was left behind and, in the first bucket, `e` below -/
def Placed64 (n : Nat) (δ ε e : ℝ) (M : Finset Nat) (bk : Nat → Nat) (K : Nat → ℝ) (i : Nat) (τ : ℝ) : Prop :=
  ∀ x ∈ M, (τ + (ahead n i (bk x) : ℝ) * δ - ((n : ℝ) - ahead n i (bk x)) * ε - (if ahead n i (bk x) = 0 then e else 0) ≤ K x) ∧
    K x ≤ τ + ((ahead n i (bk x) : ℝ) + 1) * δ + ((n : ℝ) - ahead n i (bk x)) * ε

theorem Placed64.weaken {n : Nat} {δ ε e : ℝ} (he : 0 ≤ e) {M : Finset Nat} {bk : Nat → Nat} {K : Nat → ℝ} {i : Nat} {τ : ℝ} (h : Placed64 n δ ε 0 M bk K i τ) :
    Placed64 n δ ε e M bk K i τ := by
  intro x hx
  obtain ⟨h1, h2⟩ := h x hx
  refine ⟨?_, h2⟩
  simp only [ite_self] at h1
  split <;> linarith

theorem Placed64.shift {n : Nat} {δ ε e : ℝ} {M : Finset Nat} {bk : Nat → Nat} {K : Nat → ℝ} {i : Nat} {τ τ' : ℝ} (h : Placed64 n δ ε e M bk K i τ)
    (hi : i < n) (hb : ∀ e ∈ M, bk e < n) (hne : ∀ e ∈ M, bk e ≠ i) (hτ : |τ' - (τ + δ)| ≤ ε) : Placed64 n δ ε 0 M bk K ((i + 1) % n) τ' := by
  intro x hx
  obtain ⟨h1, h2⟩ := h x hx
  rw [ahead_shift hi (hb x hx) (hne x hx)] at h1 h2
  simp only [Nat.succ_ne_zero, if_false] at h1
  push_cast at h1 h2
  have := abs_le.1 hτ
  simp only [ite_self]
  constructor <;> linarith

/-- one shift of the beginning of the queue -/
theorem shift_f64 {n : Nat} (hn : 0 < n) {inc A : ℝ} (hinc : (2:ℝ)^(-900:ℤ) ≤ inc) (hinc2 : inc ≤ (2:ℝ)^(900:ℤ)) (hA0 : 0 ≤ A) (hA : A ≤ (2:ℝ)^(300:ℤ)) {q : UQ (F64 R)} {τ d : ℝ}
    (h0 : q.t0.1 = .fin τ) (hd : q.delta.1 = .fin d) (hde : |d - inc / n| ≤ uu * inc) (hτ0 : 0 ≤ τ) (hτ : τ ≤ A + 2 * inc) :
    ∃ τ', q.shift.t0.1 = .fin τ' ∧ |τ' - (τ + inc / n)| ≤ 16 * uu * (A + inc) := by
  have hincp : 0 < inc := lt_of_lt_of_le (zpow_pos (by norm_num) _) hinc
  have hn1 : (1 : ℝ) ≤ n := by exact_mod_cast hn
  have hδ1 : inc / n ≤ inc := div_le_self hincp.le hn1
  have hδ0 : 0 < inc / n := div_pos hincp (by linarith)
  have hu := uu_pos
  have hu1 : 100 * uu ≤ 1 := by unfold uu; norm_num
  have hde' := abs_le.1 hde
  have hb : |τ + d| ≤ A + 4 * inc := by rw [abs_le]; constructor <;> nlinarith
  have pw1 : (2:ℝ)^(-1000:ℤ) ≤ (2:ℝ)^(-900:ℤ) := zpow_le_zpow_right₀ (by norm_num) (by norm_num)
  have pw2 : (2:ℝ)^(300:ℤ) + 4 * (2:ℝ)^(900:ℤ) ≤ (2:ℝ)^(1000:ℤ) := by
    have h1 : (2:ℝ)^(300:ℤ) ≤ (2:ℝ)^(900:ℤ) := zpow_le_zpow_right₀ (by norm_num) (by norm_num)
    have h2 : (2:ℝ)^(903:ℤ) = (2:ℝ)^(900:ℤ) * (2:ℝ)^(3:ℤ) := by rw [← zpow_add₀ (by norm_num)]; norm_num
    have h3 : (2:ℝ)^(3:ℤ) = 8 := by norm_num
    have h4 : (0:ℝ) < (2:ℝ)^(900:ℤ) := zpow_pos (by norm_num) _
    have h5 : (2:ℝ)^(903:ℤ) ≤ (2:ℝ)^(1000:ℤ) := zpow_le_zpow_right₀ (by norm_num) (by norm_num)
    rw [h3] at h2
    refine le_trans ?_ h5
    rw [h2]
    have key : ∀ P Q : ℝ, Q ≤ P → 0 < P → Q + 4 * P ≤ P * 8 := fun P Q h h' => by linarith
    exact key _ _ h1 h4
  obtain ⟨s, hs, hse⟩ := rd_err R hb (by linarith) (le_trans (add_le_add hA (mul_le_mul_of_nonneg_left hinc2 (by norm_num))) pw2)
  refine ⟨s, ?_, ?_⟩
  · show (F64.rnd R (XR.add q.t0.1 q.delta.1)).1 = _
    rw [h0, hd]; exact hs
  · have := abs_le.1 hse
    have hm : 0 ≤ uu * inc := by positivity
    have hm2 : 0 ≤ uu * A := by positivity
    rw [abs_le]; constructor <;> linarith

/-- the loop of `top` in doubles -/
theorem Placed64.advance {n : Nat} {inc A e : ℝ} {M : Finset Nat} {bk : Nat → Nat} {K : Nat → ℝ} (hn : 0 < n) (hinc : (2:ℝ)^(-900:ℤ) ≤ inc) (hinc2 : inc ≤ (2:ℝ)^(900:ℤ))
    (hA0 : 0 ≤ A) (hA : A ≤ (2:ℝ)^(300:ℤ)) (he : 0 ≤ e) (hM : M.Nonempty) (hKA : ∀ x ∈ M, K x ≤ A) (hδ : n * (16 * uu * (A + inc)) ≤ inc / n) :
    ∀ (m : Nat) (q : UQ (F64 R)) (τ d : ℝ), q.size = n → q.i0 < n → q.delta.1 = .fin d → |d - inc / n| ≤ uu * inc → q.t0.1 = .fin τ → 0 ≤ τ →
    (∀ x ∈ M, bk x < n) → (∀ x ∈ M, x ∈ q.tab (bk x)) → Placed64 n (inc / n) (16 * uu * (A + inc)) e M bk K q.i0 τ →
    ∃ τ', (q.advance m).t0.1 = .fin τ' ∧ τ ≤ τ' ∧ Placed64 n (inc / n) (16 * uu * (A + inc)) e M bk K (q.advance m).i0 τ' ∧
      (τ' = τ ∨ Placed64 n (inc / n) (16 * uu * (A + inc)) 0 M bk K (q.advance m).i0 τ') := by
  have hincp : 0 < inc := lt_of_lt_of_le (zpow_pos (by norm_num) _) hinc
  have hnR : (0 : ℝ) < n := by exact_mod_cast hn
  have hn1 : (1 : ℝ) ≤ n := by exact_mod_cast hn
  have hδ0 : 0 < inc / n := div_pos hincp hnR
  have hδ1 : inc / n ≤ inc := div_le_self hincp.le hn1
  have hu := uu_pos
  set ε := 16 * uu * (A + inc) with hε
  have hε0 : 0 ≤ ε := by rw [hε]; positivity
  have hε1 : ε ≤ inc / n := le_trans (by nlinarith) hδ
  intro m
  induction m with
  | zero => intro q τ d _ _ _ _ h _ _ _ hp; exact ⟨τ, h, le_refl _, hp, Or.inl rfl⟩
  | succ m ih =>
    intro q τ d hs hi hd hde h0 hτ0 hb hm hp
    unfold UQ.advance
    split
    · next hemp =>
      have hne : ∀ x ∈ M, bk x ≠ q.i0 := by
        intro x hx h
        have := hm x hx
        rw [h, hemp] at this; simp at this
      have hτA : τ ≤ A + 2 * inc := by
        obtain ⟨x, hx⟩ := hM
        have h1 := (hp x hx).1
        have h2 : ahead n q.i0 (bk x) ≠ 0 := by
          intro h; exact hne x hx (ahead_eq_zero hi (hb x hx) h)
        rw [if_neg h2] at h1
        have h3 := hKA x hx
        have h4 : (0:ℝ) ≤ (ahead n q.i0 (bk x) : ℝ) := Nat.cast_nonneg _
        have h5 : 0 ≤ (ahead n q.i0 (bk x) : ℝ) * (inc / n) := mul_nonneg h4 hδ0.le
        have h6 : ((n : ℝ) - ahead n q.i0 (bk x)) * ε ≤ n * ε := mul_le_mul_of_nonneg_right (by linarith) hε0
        linarith
      obtain ⟨τ1, t1, t2⟩ := shift_f64 hn hinc hinc2 hA0 hA h0 hd hde hτ0 hτA
      rw [← hε] at t2
      have hle : τ ≤ τ1 := by have := abs_le.1 t2; linarith
      have hp1 := hp.shift hi hb hne t2
      obtain ⟨τ', g1, g2, g3, g4⟩ := ih q.shift τ1 d hs (by show (q.i0 + 1) % q.size < n; rw [hs]; exact Nat.mod_lt _ hn) hd hde t1
        (le_trans hτ0 hle) hb hm (by
          show Placed64 n (inc / n) ε e M bk K ((q.i0 + 1) % q.size) _
          rw [hs]; exact hp1.weaken he)
      refine ⟨τ', g1, le_trans hle g2, g3, Or.inr ?_⟩
      rcases g4 with g4 | g4
      · -- no further shift: apply the loop to the strong form
        obtain ⟨τ'', k1, _, k3, _⟩ := (show ∃ τ'', (q.shift.advance m).t0.1 = .fin τ'' ∧ τ1 ≤ τ'' ∧ Placed64 n (inc / n) ε 0 M bk K (q.shift.advance m).i0 τ'' ∧ True from by
          have gen : ∀ (m : Nat) (q : UQ (F64 R)) (τ : ℝ), q.size = n → q.i0 < n → q.delta.1 = .fin d → q.t0.1 = .fin τ → 0 ≤ τ →
              (∀ x ∈ M, x ∈ q.tab (bk x)) → Placed64 n (inc / n) ε 0 M bk K q.i0 τ →
              ∃ τ', (q.advance m).t0.1 = .fin τ' ∧ τ ≤ τ' ∧ Placed64 n (inc / n) ε 0 M bk K (q.advance m).i0 τ' := by
            intro m
            induction m with
            | zero => intro q τ _ _ _ h _ _ hp; exact ⟨τ, h, le_refl _, hp⟩
            | succ m ih2 =>
              intro q τ hs hi hd h0 hτ0 hm hp
              unfold UQ.advance
              split
              · next hemp =>
                have hne : ∀ x ∈ M, bk x ≠ q.i0 := by
                  intro x hx h
                  have := hm x hx
                  rw [h, hemp] at this; simp at this
                have hτA : τ ≤ A + 2 * inc := by
                  obtain ⟨x, hx⟩ := hM
                  have h1 := (hp x hx).1
                  simp only [ite_self] at h1
                  have h3 := hKA x hx
                  have h4 : (0:ℝ) ≤ (ahead n q.i0 (bk x) : ℝ) := Nat.cast_nonneg _
                  have h5 : 0 ≤ (ahead n q.i0 (bk x) : ℝ) * (inc / n) := mul_nonneg h4 hδ0.le
                  have h6 : ((n : ℝ) - ahead n q.i0 (bk x)) * ε ≤ n * ε := mul_le_mul_of_nonneg_right (by linarith) hε0
                  linarith
                obtain ⟨τ1, t1, t2⟩ := shift_f64 hn hinc hinc2 hA0 hA h0 hd hde hτ0 hτA
                rw [← hε] at t2
                have hle : τ ≤ τ1 := by have := abs_le.1 t2; linarith
                obtain ⟨τ', g1, g2, g3⟩ := ih2 q.shift τ1 hs (by show (q.i0 + 1) % q.size < n; rw [hs]; exact Nat.mod_lt _ hn) hd t1
                  (le_trans hτ0 hle) hm (by
                    show Placed64 n (inc / n) ε 0 M bk K ((q.i0 + 1) % q.size) _
                    rw [hs]; exact hp.shift hi hb hne t2)
                exact ⟨τ', g1, le_trans hle g2, g3⟩
              · exact ⟨τ, h0, le_refl _, hp⟩
          obtain ⟨a, b, c, d'⟩ := gen m q.shift τ1 hs (by show (q.i0 + 1) % q.size < n; rw [hs]; exact Nat.mod_lt _ hn) hd t1 (le_trans hτ0 hle) hm (by
            show Placed64 n (inc / n) ε 0 M bk K ((q.i0 + 1) % q.size) _
            rw [hs]; exact hp1)
          exact ⟨a, b, c, d', trivial⟩)
        rw [g1] at k1
        injection k1 with k1
        rw [k1]; exact k3
      · exact g4
    · exact ⟨τ, h0, le_refl _, hp, Or.inl rfl⟩

end UQ
end FMV
