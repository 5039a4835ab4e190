import Verif.Lemmas.F64Err
import Verif.Lemmas.ApproxReal
/-! Rounding errors of `solveEikonal` in doubles. -/
set_option linter.unusedSectionVars false
set_option linter.unusedVariables false
namespace FMV
open XR
namespace F64
variable {R : Rounding}

/-- the real number a finite double stands for -/
noncomputable def rv (x : F64 R) : ℝ := match x.1 with
  | .fin r => r
  | _ => 0

/-- the double is a number -/
def IsNum (x : F64 R) : Prop := x.1 = .fin (rv x)

theorem isNum_of {x : F64 R} {r : ℝ} (h : x.1 = .fin r) : IsNum x ∧ rv x = r := by
  have : rv x = r := by unfold rv; rw [h]
  exact ⟨by unfold IsNum; rw [this]; exact h, this⟩

/-- sizes for which the error analysis holds: leaf size `h`, speed `v`, time to cross a cell `h/v`, `D` dimensions, all times at most `A` -/
structure Scale (h v A : ℝ) (D : Nat) : Prop where
  h1 : (2:ℝ)^(-200:ℤ) ≤ h
  h2 : h ≤ (2:ℝ)^(200:ℤ)
  v1 : (2:ℝ)^(-100:ℤ) ≤ v
  v2 : v ≤ (2:ℝ)^(200:ℤ)
  cA : h / v ≤ A
  A2 : A ≤ (2:ℝ)^(300:ℤ)
  D1 : 1 ≤ D
  small : 640 * (D:ℝ)^4 * uu * A^2 ≤ (h/v)^2

theorem two_pos (e : ℤ) : (0:ℝ) < (2:ℝ)^e := zpow_pos (by norm_num) _

namespace Scale
variable {h v A : ℝ} {D : Nat}

theorem hpos (S : Scale h v A D) : 0 < h := lt_of_lt_of_le (two_pos _) S.h1
theorem vpos (S : Scale h v A D) : 0 < v := lt_of_lt_of_le (two_pos _) S.v1
theorem cpos (S : Scale h v A D) : 0 < h / v := div_pos S.hpos S.vpos
theorem Apos (S : Scale h v A D) : 0 < A := lt_of_lt_of_le S.cpos S.cA

theorem c1 (S : Scale h v A D) : (2:ℝ)^(-400:ℤ) ≤ h / v := by
  rw [le_div_iff₀ S.vpos]
  calc (2:ℝ)^(-400:ℤ) * v ≤ (2:ℝ)^(-400:ℤ) * (2:ℝ)^(200:ℤ) := mul_le_mul_of_nonneg_left S.v2 (two_pos _).le
    _ = (2:ℝ)^(-200:ℤ) := by rw [← zpow_add₀ (by norm_num)]; norm_num
    _ ≤ h := S.h1

theorem A1 (S : Scale h v A D) : (2:ℝ)^(-400:ℤ) ≤ A := le_trans S.c1 S.cA

theorem cA2 (S : Scale h v A D) : (h/v)^2 ≤ A^2 := by
  have := S.cpos; have := S.cA; gcongr

theorem Dsmall (S : Scale h v A D) : 640 * (D:ℝ)^4 * uu ≤ 1 := by
  have h1 := le_trans S.small S.cA2
  have : 0 < A^2 := by have := S.Apos; positivity
  by_contra hc
  nlinarith

theorem D1' (S : Scale h v A D) : (1:ℝ) ≤ D := by exact_mod_cast S.D1

theorem nn (S : Scale h v A D) {n : Nat} (hn1 : 1 ≤ n) (hn : n ≤ D) :
    (1:ℝ) ≤ n ∧ (n:ℝ) ≤ D ∧ 640 * (n:ℝ)^2 * uu ≤ 1 ∧ 640 * (n:ℝ)^4 * uu ≤ 1 ∧ 640 * (n:ℝ) * uu ≤ 1 := by
  have a1 : (1:ℝ) ≤ n := by exact_mod_cast hn1
  have a2 : (n:ℝ) ≤ D := by exact_mod_cast hn
  have hw := uu_pos
  have h4 : 640 * (n:ℝ)^4 * uu ≤ 1 := le_trans (by gcongr) S.Dsmall
  have h2 : 640 * (n:ℝ)^2 * uu ≤ 1 := by
    refine le_trans ?_ h4
    have : (n:ℝ)^2 ≤ (n:ℝ)^4 := pow_le_pow_right₀ a1 (by norm_num)
    gcongr
  refine ⟨a1, a2, h2, h4, le_trans ?_ h2⟩
  have : (n:ℝ) ≤ (n:ℝ)^2 := by nlinarith
  gcongr

theorem nlt (S : Scale h v A D) {n : Nat} (hn1 : 1 ≤ n) (hn : n ≤ D) : (n:ℝ)^2 ≤ 2^43 := by
  have := (S.nn hn1 hn).2.2.1
  unfold uu at this
  linarith

theorem mid (S : Scale h v A D) {x : ℝ} (hx : 1 ≤ x) (hx2 : x ≤ 2^100) : Mid (x * A) ∧ Mid (x * A^2) := by
  have hA := S.Apos
  have e1 : (2:ℝ)^(-1000:ℤ) ≤ (2:ℝ)^(-400:ℤ) := zpow_le_zpow_right₀ (by norm_num) (by norm_num)
  have e2 : (2:ℝ)^(-400:ℤ) * (2:ℝ)^(-400:ℤ) = (2:ℝ)^(-800:ℤ) := by rw [← zpow_add₀ (by norm_num)]; norm_num
  have e3 : (2:ℝ)^(-1000:ℤ) ≤ (2:ℝ)^(-800:ℤ) := zpow_le_zpow_right₀ (by norm_num) (by norm_num)
  have e4 : (2:ℝ)^(300:ℤ) * (2:ℝ)^(300:ℤ) = (2:ℝ)^(600:ℤ) := by rw [← zpow_add₀ (by norm_num)]; norm_num
  have e5 : (2:ℝ)^100 * (2:ℝ)^(600:ℤ) ≤ (2:ℝ)^(1000:ℤ) := by
    rw [show (2:ℝ)^100 = (2:ℝ)^(100:ℤ) by norm_num, ← zpow_add₀ (by norm_num)]; exact zpow_le_zpow_right₀ (by norm_num) (by norm_num)
  have e6 : (2:ℝ)^100 * (2:ℝ)^(300:ℤ) ≤ (2:ℝ)^(1000:ℤ) := by
    rw [show (2:ℝ)^100 = (2:ℝ)^(100:ℤ) by norm_num, ← zpow_add₀ (by norm_num)]; exact zpow_le_zpow_right₀ (by norm_num) (by norm_num)
  have a1 := S.A1
  have a2 := S.A2
  have p1 := two_pos (-400)
  have hAA : (2:ℝ)^(-800:ℤ) ≤ A^2 := by rw [← e2]; nlinarith
  have hAA2 : A^2 ≤ (2:ℝ)^(600:ℤ) := by rw [← e4, sq]; exact mul_le_mul a2 a2 hA.le (two_pos _).le
  refine ⟨⟨?_, ?_⟩, ⟨?_, ?_⟩⟩
  · nlinarith
  · refine le_trans ?_ e6
    exact mul_le_mul hx2 a2 hA.le (by norm_num)
  · nlinarith [sq_nonneg A]
  · refine le_trans ?_ e5
    exact mul_le_mul hx2 hAA2 (sq_nonneg A) (by norm_num)

end Scale

variable {h v A : ℝ} {D : Nat}

/-- a list of times: numbers between 0 and `A` -/
def Times (A : ℝ) (ts : List (F64 R)) : Prop := ∀ t ∈ ts, IsNum t ∧ 0 ≤ rv t ∧ rv t ≤ A

theorem sumT_apx (S : Scale h v A D) : ∀ (ts : List (F64 R)) (acc : F64 R) (s : ℝ) (k : Nat), Times A ts → k + ts.length ≤ D →
    Apx acc s (2 * uu * (k:ℝ)^2 * A) → 0 ≤ s → s ≤ k * A →
    Apx (ts.foldl (fun s t => Arith.add s t) acc) (s + (ts.map rv).sum) (2 * uu * ((k + ts.length : Nat):ℝ)^2 * A) := by
  intro ts
  induction ts with
  | nil => intro acc s k _ _ h _ _; simpa using h
  | cons t ts ih =>
    intro acc s k hT hk ha hs0 hs
    rw [List.length_cons] at hk
    obtain ⟨t1, t2, t3⟩ := hT t (by simp)
    have hA := S.Apos
    have hw := uu_pos
    have n1 := S.nn (n := k+1) (by omega) (by omega)
    push_cast at n1
    obtain ⟨m1, m2, m3, m4, m5⟩ := n1
    have hlt := S.nlt (n := k+1) (by omega) (by omega)
    push_cast at hlt
    have hk0 : (0:ℝ) ≤ k := Nat.cast_nonneg k
    have hB := (S.mid (x := 2 * ((k:ℝ)+1)) (by linarith) (by nlinarith)).1
    have key := add_apx ha (Apx.exact t1) hB (by
      rw [abs_of_nonneg (by linarith), add_zero]
      have : 2 * uu * (k:ℝ)^2 * A ≤ 1 * A := by
        apply mul_le_mul_of_nonneg_right _ hA.le
        nlinarith
      nlinarith)
    have e1 : s + (List.map rv (t :: ts)).sum = (s + rv t) + (ts.map rv).sum := by simp; ring
    rw [List.foldl_cons, e1, show k + (t :: ts).length = (k + 1) + ts.length by simp; omega]
    refine ih _ _ (k+1) (fun x hx => hT x (by simp [hx])) (by omega) (key.mono ?_) (by linarith) (by push_cast; linarith)
    push_cast
    have : 2 * uu * (k:ℝ)^2 * A + 0 + uu * (2 * ((k:ℝ)+1) * A) = 2 * uu * A * ((k:ℝ)^2 + k + 1) := by ring
    rw [this]
    have : 2 * uu * ((k:ℝ)+1)^2 * A = 2 * uu * A * ((k:ℝ)+1)^2 := by ring
    rw [this]
    apply mul_le_mul_of_nonneg_left _ (by positivity)
    nlinarith

theorem sumTT_apx (S : Scale h v A D) : ∀ (ts : List (F64 R)) (acc : F64 R) (s : ℝ) (k : Nat), Times A ts → k + ts.length ≤ D →
    Apx acc s (3 * uu * (k:ℝ)^2 * A^2) → 0 ≤ s → s ≤ k * A^2 →
    Apx (ts.foldl (fun s t => Arith.add s (Arith.mul t t)) acc) (s + ((ts.map rv).map (fun t => t^2)).sum)
      (3 * uu * ((k + ts.length : Nat):ℝ)^2 * A^2) := by
  intro ts
  induction ts with
  | nil => intro acc s k _ _ h _ _; simpa using h
  | cons t ts ih =>
    intro acc s k hT hk ha hs0 hs
    rw [List.length_cons] at hk
    obtain ⟨t1, t2, t3⟩ := hT t (by simp)
    have hA := S.Apos
    have hw := uu_pos
    have n1 := S.nn (n := k+1) (by omega) (by omega)
    push_cast at n1
    obtain ⟨m1, m2, m3, m4, m5⟩ := n1
    have hlt := S.nlt (n := k+1) (by omega) (by omega)
    push_cast at hlt
    have hk0 : (0:ℝ) ≤ k := Nat.cast_nonneg k
    have hB := (S.mid (x := 2 * ((k:ℝ)+1)) (by linarith) (by nlinarith)).2
    have hB1 := (S.mid (x := 1) (by linarith) (by norm_num)).2
    have hA2 : 0 < A^2 := by positivity
    have hr2 : rv t * rv t ≤ A^2 := by nlinarith
    have hr0 : 0 ≤ rv t * rv t := mul_nonneg t2 t2
    have hmul := mul_apx (Apx.exact t1) (Apx.exact t1) hB1 (by
      rw [abs_of_nonneg hr0]; linarith)
    have hmul' : Apx (Arith.mul t t) (rv t * rv t) (uu * A^2) := hmul.mono (by linarith)
    have key := add_apx ha hmul' hB (by
      rw [abs_of_nonneg (by linarith)]
      have : 3 * uu * (k:ℝ)^2 * A^2 + uu * A^2 ≤ 1 * A^2 := by
        have : 3 * uu * (k:ℝ)^2 + uu ≤ 1 := by nlinarith
        nlinarith
      nlinarith)
    have e1 : s + ((List.map rv (t :: ts)).map (fun t => t^2)).sum = (s + rv t * rv t) + ((ts.map rv).map (fun t => t^2)).sum := by simp; ring
    rw [List.foldl_cons, e1, show k + (t :: ts).length = (k + 1) + ts.length by simp; omega]
    refine ih _ _ (k+1) (fun x hx => hT x (by simp [hx])) (by omega) (key.mono ?_) (by linarith) (by push_cast; linarith)
    push_cast
    have : 3 * uu * (k:ℝ)^2 * A^2 + uu * A^2 + uu * (2 * ((k:ℝ)+1) * A^2) = uu * A^2 * (3 * (k:ℝ)^2 + 2 * k + 3) := by ring
    rw [this]
    have : 3 * uu * ((k:ℝ)+1)^2 * A^2 = uu * A^2 * (3 * ((k:ℝ)+1)^2) := by ring
    rw [this]
    apply mul_le_mul_of_nonneg_left _ (by positivity)
    nlinarith

theorem Scale.midh (S : Scale h v A D) : Mid (h*h) := by
  have e200 : (2:ℝ)^(-200:ℤ) * (2:ℝ)^(-200:ℤ) = (2:ℝ)^(-400:ℤ) := by rw [← zpow_add₀ (by norm_num)]; norm_num
  have e200' : (2:ℝ)^(200:ℤ) * (2:ℝ)^(200:ℤ) = (2:ℝ)^(400:ℤ) := by rw [← zpow_add₀ (by norm_num)]; norm_num
  constructor
  · refine le_trans (zpow_le_zpow_right₀ (by norm_num) (by norm_num)) (le_trans (le_of_eq e200.symm) ?_)
    exact mul_le_mul S.h1 S.h1 (two_pos _).le S.hpos.le
  · refine le_trans (mul_le_mul S.h2 S.h2 S.hpos.le (two_pos _).le) (le_trans (le_of_eq e200') (zpow_le_zpow_right₀ (by norm_num) (by norm_num)))

theorem Scale.midv (S : Scale h v A D) : Mid (v*v) := by
  have e100 : (2:ℝ)^(-100:ℤ) * (2:ℝ)^(-100:ℤ) = (2:ℝ)^(-200:ℤ) := by rw [← zpow_add₀ (by norm_num)]; norm_num
  have e200' : (2:ℝ)^(200:ℤ) * (2:ℝ)^(200:ℤ) = (2:ℝ)^(400:ℤ) := by rw [← zpow_add₀ (by norm_num)]; norm_num
  constructor
  · refine le_trans (zpow_le_zpow_right₀ (by norm_num) (by norm_num)) (le_trans (le_of_eq e100.symm) ?_)
    exact mul_le_mul S.v1 S.v1 (two_pos _).le S.vpos.le
  · refine le_trans (mul_le_mul S.v2 S.v2 S.vpos.le (two_pos _).le) (le_trans (le_of_eq e200') (zpow_le_zpow_right₀ (by norm_num) (by norm_num)))

/-- error of a quotient of numbers with small relative errors -/
theorem ratio_err {a b s t w : ℝ} (ha : 0 < a) (hb : 0 < b) (hw : 0 < w) (hw1 : w ≤ 1/100) (hs : |s - a| ≤ w * a) (ht : |t - b| ≤ w * b) :
    0 < t ∧ |s / t - a / b| ≤ 3 * w * (a / b) := by
  have s3 := abs_le.1 hs
  have t3 := abs_le.1 ht
  have hwb : w * b ≤ b / 100 := by
    have := mul_le_mul_of_nonneg_right hw1 hb.le; linarith
  have ht0 : 0 < t := by linarith [t3.1]
  have hb1 : b * (1 - w) ≤ t := by linarith [t3.1]
  have hb2 : t ≤ b * (1 + w) := by linarith [t3.2]
  have ha1 : a * (1 - w) ≤ s := by linarith [s3.1]
  have ha2 : s ≤ a * (1 + w) := by linarith [s3.2]
  refine ⟨ht0, ?_⟩
  rw [abs_le]
  constructor
  · rw [neg_le_sub_iff_le_add, ← sub_le_iff_le_add]
    rw [le_div_iff₀ ht0]
    have : a / b - 3 * w * (a / b) = a * (1 - 3 * w) / b := by ring
    rw [this, div_mul_eq_mul_div, div_le_iff₀ hb]
    have h1 : a * (1 - 3 * w) * t ≤ a * (1 - 3 * w) * (b * (1 + w)) :=
      mul_le_mul_of_nonneg_left hb2 (mul_nonneg ha.le (by linarith))
    have h2 : a * (1 - w) * b ≤ s * b := mul_le_mul_of_nonneg_right ha1 hb.le
    have h3 : (1 - 3 * w) * (1 + w) ≤ 1 - w := by nlinarith
    have h4 := mul_le_mul_of_nonneg_left h3 (mul_pos ha hb).le
    nlinarith
  · rw [sub_le_iff_le_add, div_le_iff₀ ht0]
    have : 3 * w * (a / b) + a / b = a * (1 + 3 * w) / b := by ring
    rw [this, div_mul_eq_mul_div, le_div_iff₀ hb]
    have h1 : a * (1 + 3 * w) * (b * (1 - w)) ≤ a * (1 + 3 * w) * t :=
      mul_le_mul_of_nonneg_left hb1 (mul_nonneg ha.le (by linarith))
    have h2 : s * b ≤ a * (1 + w) * b := mul_le_mul_of_nonneg_right ha2 hb.le
    have h3 : 1 + w ≤ (1 + 3 * w) * (1 - w) := by nlinarith
    have h4 := mul_le_mul_of_nonneg_left h3 (mul_pos ha hb).le
    nlinarith

theorem uu_small : uu ≤ 1/100 := by unfold uu; norm_num

/-- the quotient `h*h / (v*v)` -/
theorem slow_apx (S : Scale h v A D) {hF vF : F64 R} (hh : hF.1 = .fin h) (hv : vF.1 = .fin v) :
    Apx (Arith.div (Arith.mul hF hF) (Arith.mul vF vF)) ((h/v)^2) (5 * uu * A^2) := by
  have hh2 : 0 < h * h := mul_pos S.hpos S.hpos
  have vv2 : 0 < v * v := mul_pos S.vpos S.vpos
  have m1 := mul_apx (Apx.exact hh) (Apx.exact hh) S.midh (by rw [abs_of_pos hh2]; linarith)
  have m2 := mul_apx (Apx.exact hv) (Apx.exact hv) S.midv (by rw [abs_of_pos vv2]; linarith)
  obtain ⟨s, s1, s2⟩ := m1
  obtain ⟨t, t1, t2⟩ := m2
  have hB := (S.mid (x := 2) (by norm_num) (by norm_num)).2
  have hA2 : 0 < A^2 := by have := S.Apos; positivity
  have hc := S.cA2
  have hcc : (h/v)^2 = h*h/(v*v) := by have := S.vpos; field_simp
  obtain ⟨ht0, herr⟩ := ratio_err hh2 vv2 uu_pos uu_small (by simpa using s2) (by simpa using t2)
  have herr' : |s / t - (h/v)^2| ≤ 3 * uu * A^2 := by
    rw [hcc] at hc ⊢
    refine le_trans herr (mul_le_mul_of_nonneg_left hc (by have := uu_pos; linarith))
  have e : (Arith.div (Arith.mul hF hF) (Arith.mul vF vF) : F64 R) = rnd R (.fin (s / t)) := by
    show rnd R (XR.div (Arith.mul hF hF : F64 R).1 (Arith.mul vF vF : F64 R).1) = _
    rw [s1, t1]; simp [XR.div, ht0.ne']
  rw [e]
  have hw := uu_pos
  have hw1 := uu_small
  refine (rnd_apx herr' hB ?_).mono (by linarith)
  rw [abs_of_nonneg (sq_nonneg _)]
  have : 3 * uu * A^2 ≤ 1 * A^2 := mul_le_mul_of_nonneg_right (by linarith) hA2.le
  linarith

theorem sum_le_of_times {ts : List (F64 R)} (hT : Times A ts) : 0 ≤ (ts.map rv).sum ∧ (ts.map rv).sum ≤ ts.length * A ∧
    0 ≤ ((ts.map rv).map (fun t => t^2)).sum ∧ ((ts.map rv).map (fun t => t^2)).sum ≤ ts.length * A^2 := by
  induction ts with
  | nil => simp
  | cons t ts ih =>
    obtain ⟨a1, a2, a3, a4⟩ := ih (fun x hx => hT x (by simp [hx]))
    obtain ⟨_, t2, t3⟩ := hT t (by simp)
    simp only [List.map_cons, List.sum_cons, List.length_cons]
    push_cast
    have : (rv t)^2 ≤ A^2 := by gcongr
    refine ⟨by linarith, by linarith, by have := sq_nonneg (rv t); linarith, by linarith⟩

/-- first iteration: `Tvalues_[0] + leafsize / velocity` -/
theorem solve1_apx (S : Scale h v A D) {hF vF : F64 R} (hh : hF.1 = .fin h) (hv : vF.1 = .fin v) {t : F64 R} (ht : IsNum t ∧ 0 ≤ rv t ∧ rv t ≤ A) :
    Apx (Arith.add t (Arith.div hF vF)) (rv t + h/v) (4 * uu * A) := by
  have hA := S.Apos
  have hc := S.cpos
  have hcA := S.cA
  have hw := uu_pos
  have hw1 := uu_small
  have m1 := (S.mid (x := 1) (by norm_num) (by norm_num)).1
  have m3 := (S.mid (x := 3) (by norm_num) (by norm_num)).1
  have d := div_apx (Apx.exact hh) hv S.vpos m1 (by rw [abs_of_pos hc]; simp; linarith)
  have d' : Apx (Arith.div hF vF) (h/v) (uu * A) := d.mono (by simp)
  have a := add_apx (Apx.exact ht.1) d' m3 (by
    rw [abs_of_nonneg (by linarith [ht.2.1])]
    have : uu * A ≤ 1/100 * A := mul_le_mul_of_nonneg_right hw1 hA.le
    linarith [ht.2.2])
  exact a.mono (by linarith)

set_option maxHeartbeats 4000000 in
/-- the quadratic equation -/
theorem solveQ_apx (S : Scale h v A D) {hF vF : F64 R} (hh : hF.1 = .fin h) (hv : vF.1 = .fin v) {ts : List (F64 R)} (hT : Times A ts) {n : Nat}
    (hn1 : 1 ≤ n) (hnD : n ≤ D) (hn : n ≤ ts.length) (hne : n ≠ 1)
    (hQ : (h/v)^2 ≤ discR (h/v) ((ts.take n).map rv)) :
    Apx (solveND hF vF ts n) (ndR (h/v) ((ts.take n).map rv)) (67 * (n:ℝ)^2 * uu * A^2 / (h/v)) := by
  have hlen : (ts.take n).length = n := by simp [hn]
  have hT' : Times A (ts.take n) := fun t ht => hT t (List.mem_of_mem_take ht)
  have hA := S.Apos
  have hc := S.cpos
  have hcA := S.cA
  have hc2 := S.cA2
  have hw := uu_pos
  have hw1 := uu_small
  obtain ⟨a1, a2, a3, a4, a5⟩ := S.nn hn1 hnD
  have hlt := S.nlt hn1 hnD
  have hsmall : 640 * (n:ℝ)^4 * uu * A^2 ≤ (h/v)^2 := le_trans (by gcongr) S.small
  have s1 := sumT_apx S (ts.take n) Arith.zero 0 0 hT' (by rw [hlen]; omega) (Apx.mono (Apx.exact rfl) (by simp)) (le_refl _) (by simp)
  have s2 := sumTT_apx S (ts.take n) Arith.zero 0 0 hT' (by rw [hlen]; omega) (Apx.mono (Apx.exact rfl) (by simp)) (le_refl _) (by simp)
  rw [hlen, zero_add, zero_add] at s1 s2
  have hq := slow_apx S hh hv
  obtain ⟨b1, b2, b3, b4⟩ := sum_le_of_times hT'
  rw [hlen] at b2 b4
  unfold solveND
  rw [if_neg hne]
  dsimp only
  generalize (ts.take n).foldl (fun s t => Arith.add s t) (Arith.zero : F64 R) = sT at s1 ⊢
  generalize (ts.take n).foldl (fun s t => Arith.add s (Arith.mul t t)) (Arith.zero : F64 R) = sTT at s2 ⊢
  generalize (Arith.div (Arith.mul hF hF) (Arith.mul vF vF) : F64 R) = q at hq ⊢
  rw [ndR_eq]
  unfold discR at hQ ⊢
  rw [List.length_map, hlen] at hQ ⊢
  generalize ((ts.take n).map rv).sum = σ at b1 b2 s1 hQ ⊢
  generalize (((ts.take n).map rv).map (fun t => t^2)).sum = τ at b3 b4 s2 hQ ⊢
  generalize hcd : h / v = c at *
  clear hT hT' hlen hn hne
  have hAA : 0 < A^2 := by positivity
  have hn0 : (0:ℝ) < n := by linarith
  have hn2 : (n:ℝ) ≤ (n:ℝ)^2 := by nlinarith
  have hn3 : (n:ℝ)^2 ≤ (n:ℝ)^3 := by nlinarith [sq_nonneg (n:ℝ)]
  have hn1' : (1:ℝ) ≤ (n:ℝ)^2 := by nlinarith
  -- units
  have wA : 0 < uu * A := mul_pos hw hA
  have wAA : 0 < uu * A^2 := mul_pos hw hAA
  -- b
  have mb := (S.mid (x := 4 * (n:ℝ)) (by linarith) (by linarith)).1
  have e2 : (Arith.ofRat (-2) 1 : F64 R).1 = .fin (-2) := by have := ofRat_exact (R := R) (p := -2) (by norm_num); simpa using this
  have E1 : 2 * uu * (n:ℝ)^2 * A ≤ A / 100 := by
    have : 2 * uu * (n:ℝ)^2 ≤ 1/100 := by linarith
    have := mul_le_mul_of_nonneg_right this hA.le
    linarith
  have nA : A ≤ n * A := le_mul_of_one_le_left hA.le a1
  have bb := mul_apx (Apx.exact e2) s1 mb (by
    rw [abs_of_nonpos (by linarith), abs_of_nonpos (by norm_num)]; linarith)
  have bb' : Apx (Arith.mul (Arith.ofRat (-2) 1) sT) (-2 * σ) (8 * (n:ℝ)^2 * (uu * A)) := bb.mono (by
    rw [abs_of_nonpos (by norm_num : (-2:ℝ) ≤ 0)]
    have : (n:ℝ) * (uu * A) ≤ (n:ℝ)^2 * (uu * A) := mul_le_mul_of_nonneg_right hn2 wA.le
    linarith)
  -- c
  have mc := (S.mid (x := 2 * (n:ℝ)) (by linarith) (by linarith)).2
  have nAA : A^2 ≤ n * A^2 := le_mul_of_one_le_left hAA.le a1
  have E2 : 3 * uu * (n:ℝ)^2 * A^2 + 5 * uu * A^2 ≤ A^2 := by
    have : 3 * uu * (n:ℝ)^2 + 5 * uu ≤ 1 := by linarith
    have := mul_le_mul_of_nonneg_right this hAA.le
    linarith
  have hτc : |τ - c^2| ≤ n * A^2 := by
    rw [abs_le]; constructor
    · linarith [sq_nonneg c]
    · linarith [sq_nonneg c]
  have cc := sub_apx s2 hq mc (by linarith)
  have cc' : Apx (Arith.sub sTT q) (τ - c^2) (10 * (n:ℝ)^2 * (uu * A^2)) := cc.mono (by
    have h1 : (n:ℝ) * (uu * A^2) ≤ (n:ℝ)^2 * (uu * A^2) := mul_le_mul_of_nonneg_right hn2 wAA.le
    have h2 : 1 * (uu * A^2) ≤ (n:ℝ)^2 * (uu * A^2) := mul_le_mul_of_nonneg_right hn1' wAA.le
    linarith)
  -- b*b
  have mbb := (S.mid (x := 8 * (n:ℝ)^2) (by linarith) (by linarith)).2
  have hσ : |-2 * σ| = 2 * σ := by rw [abs_of_nonpos (by linarith)]; ring
  have E3 : 2 * σ * (8 * (n:ℝ)^2 * (uu * A)) ≤ 16 * (n:ℝ)^3 * (uu * A^2) := by
    have : σ * (16 * (n:ℝ)^2 * (uu * A)) ≤ (n * A) * (16 * (n:ℝ)^2 * (uu * A)) := mul_le_mul_of_nonneg_right b2 (by positivity)
    have h4 : (n * A) * (16 * (n:ℝ)^2 * (uu * A)) = 16 * (n:ℝ)^3 * (uu * A^2) := by ring
    rw [h4] at this
    linarith
  have E4 : (8 * (n:ℝ)^2 * (uu * A)) * (8 * (n:ℝ)^2 * (uu * A)) ≤ (n:ℝ)^3 * (uu * A^2) := by
    have : 64 * (n:ℝ) * uu ≤ 1 := by linarith
    have h2 : 0 ≤ (n:ℝ)^3 * (uu * A^2) := by positivity
    have h3 := mul_le_mul_of_nonneg_right this h2
    have h4 : (8 * (n:ℝ)^2 * (uu * A)) * (8 * (n:ℝ)^2 * (uu * A)) = 64 * (n:ℝ) * uu * ((n:ℝ)^3 * (uu * A^2)) := by ring
    rw [h4]; linarith
  have E5 : (n:ℝ)^2 * (uu * A^2) ≤ (n:ℝ)^3 * (uu * A^2) := mul_le_mul_of_nonneg_right hn3 wAA.le
  have N3 : (n:ℝ)^3 * (uu * A^2) ≤ A^2 / 640 * (n:ℝ)^2 := by
    have h1 : 640 * (n:ℝ) * uu * ((n:ℝ)^2 * A^2) ≤ 1 * ((n:ℝ)^2 * A^2) := mul_le_mul_of_nonneg_right a5 (by positivity)
    have h4 : 640 * (n:ℝ) * uu * ((n:ℝ)^2 * A^2) = 640 * ((n:ℝ)^3 * (uu * A^2)) := by ring
    rw [h4] at h1; linarith
  have σσ : (-2 * σ) * (-2 * σ) ≤ 4 * (n:ℝ)^2 * A^2 := by
    have : σ * σ ≤ (n * A) * (n * A) := mul_le_mul b2 b2 b1 (by positivity)
    have h4 : (n * A) * (n * A) = (n:ℝ)^2 * A^2 := by ring
    rw [h4] at this; linarith
  have σσ0 : 0 ≤ (-2 * σ) * (-2 * σ) := mul_self_nonneg _
  have b2' := mul_apx bb' bb' mbb (by
    rw [hσ, abs_of_nonneg σσ0]; linarith)
  have b2'' : Apx (Arith.mul (Arith.mul (Arith.ofRat (-2) 1) sT) (Arith.mul (Arith.ofRat (-2) 1) sT)) ((-2 * σ) * (-2 * σ)) (41 * (n:ℝ)^3 * (uu * A^2)) :=
    b2'.mono (by rw [hσ]; linarith)
  -- 4 a c
  have e4 : (Arith.ofRat 4 1 : F64 R).1 = .fin ((4:Nat):ℝ) := by have := ofRat_exact (R := R) (p := 4) (by norm_num); simpa using this
  have en : (Arith.ofNat n : F64 R).1 = .fin n := ofNat_exact (by
    have : (n:ℝ) < 2^53 := by linarith
    exact_mod_cast this)
  have e4n := mul_exact e4 en (by
    have : (4:ℝ) * (n:ℝ) < 2^53 := by linarith
    exact_mod_cast this)
  have e4n' : (Arith.mul (Arith.ofRat 4 1) (Arith.ofNat n) : F64 R).1 = .fin (4 * (n:ℝ)) := by rw [e4n]; push_cast; rfl
  have h4c : |4 * (n:ℝ) * (τ - c^2)| ≤ 4 * (n:ℝ)^2 * A^2 := by
    rw [abs_mul, abs_of_pos (by linarith)]
    have := mul_le_mul_of_nonneg_left hτc (show (0:ℝ) ≤ 4 * n by linarith)
    linarith
  have ac := mul_apx (Apx.exact e4n') cc' mbb (by
    rw [abs_of_pos (show (0:ℝ) < 4 * n by linarith)]
    have : 4 * (n:ℝ) * (10 * (n:ℝ)^2 * (uu * A^2)) = 40 * ((n:ℝ)^3 * (uu * A^2)) := by ring
    rw [this]; linarith)
  have ac' : Apx (Arith.mul (Arith.mul (Arith.ofRat 4 1) (Arith.ofNat n)) (Arith.sub sTT q)) (4 * (n:ℝ) * (τ - c^2)) (48 * (n:ℝ)^3 * (uu * A^2)) := ac.mono (by
    rw [abs_of_pos (show (0:ℝ) < 4 * n by linarith)]
    have : 4 * (n:ℝ) * (10 * (n:ℝ)^2 * (uu * A^2)) = 40 * ((n:ℝ)^3 * (uu * A^2)) := by ring
    rw [this]; linarith)
  -- the discriminant
  have mq := (S.mid (x := 16 * (n:ℝ)^2) (by linarith) (by linarith)).2
  have hQeq : (-2 * σ) * (-2 * σ) - 4 * (n:ℝ) * (τ - c^2) = (2 * σ)^2 - 4 * (n:ℝ) * (τ - c^2) := by ring
  have hQle : |(-2 * σ) * (-2 * σ) - 4 * (n:ℝ) * (τ - c^2)| ≤ 8 * (n:ℝ)^2 * A^2 := by
    refine le_trans (abs_sub _ _) ?_
    rw [abs_of_nonneg σσ0]; linarith
  have hnAA : 0 ≤ (n:ℝ)^2 * A^2 := by positivity
  have qd := sub_apx b2'' ac' mq (by linarith)
  rw [hQeq] at qd hQle
  have qd' : Apx (Arith.sub (Arith.mul (Arith.mul (Arith.ofRat (-2) 1) sT) (Arith.mul (Arith.ofRat (-2) 1) sT))
      (Arith.mul (Arith.mul (Arith.ofRat 4 1) (Arith.ofNat n)) (Arith.sub sTT q))) ((2 * σ)^2 - 4 * (n:ℝ) * (τ - c^2)) (105 * (n:ℝ)^3 * (uu * A^2)) := qd.mono (by linarith)
  generalize (Arith.sub (Arith.mul (Arith.mul (Arith.ofRat (-2) 1) sT) (Arith.mul (Arith.ofRat (-2) 1) sT))
      (Arith.mul (Arith.mul (Arith.ofRat 4 1) (Arith.ofNat n)) (Arith.sub sTT q)) : F64 R) = quad at qd' ⊢
  generalize (2 * σ)^2 - 4 * (n:ℝ) * (τ - c^2) = Q at qd' hQ hQle ⊢
  have hn34 : (n:ℝ)^3 ≤ (n:ℝ)^4 := pow_le_pow_right₀ a1 (by norm_num)
  have hE : 105 * (n:ℝ)^3 * (uu * A^2) ≤ c^2 := by
    have : (n:ℝ)^3 * (uu * A^2) ≤ (n:ℝ)^4 * (uu * A^2) := mul_le_mul_of_nonneg_right hn34 wAA.le
    have h0 : 0 ≤ (n:ℝ)^4 * (uu * A^2) := by positivity
    linarith
  have hnlt : Arith.lt quad Arith.zero = false := by
    obtain ⟨x, x1, x2⟩ := qd'
    have := (abs_le.1 x2).1
    show XR.lt quad.1 (.fin 0) = false
    rw [x1]; simp only [XR.lt, decide_eq_false_iff_not, not_lt]
    linarith
  rw [hnlt]
  simp only [Bool.false_eq_true, if_false]
  -- the root
  have hcA2 : A ≤ A^2 / c := by rw [le_div_iff₀ hc, sq]; exact mul_le_mul_of_nonneg_left hcA hA.le
  have ms := (S.mid (x := 4 * (n:ℝ)) (by linarith) (by linarith)).1
  have hsq : Real.sqrt Q ≤ 3 * (n:ℝ) * A := by
    apply Real.sqrt_le_iff.2
    refine ⟨by positivity, ?_⟩
    have := (abs_le.1 hQle).2
    have h4 : (3 * (n:ℝ) * A)^2 = 9 * (n:ℝ)^2 * A^2 := by ring
    rw [h4]; linarith
  have hEc : 105 * (n:ℝ)^3 * (uu * A^2) / c ≤ c := by
    rw [div_le_iff₀ hc, ← sq]; exact hE
  have sq := sqrt_apx qd' hc hQ (le_trans hE hQ) ms (by linarith)
  have wAc : uu * A ≤ uu * (A^2/c) := mul_le_mul_of_nonneg_left hcA2 hw.le
  have X0 : 0 < uu * (A^2/c) := lt_of_lt_of_le wA wAc
  have ediv : 105 * (n:ℝ)^3 * (uu * A^2) / c = 105 * ((n:ℝ)^3 * (uu * (A^2/c))) := by field_simp
  have F1 : (n:ℝ) * (uu * A) ≤ (n:ℝ)^3 * (uu * (A^2/c)) := mul_le_mul (le_trans hn2 hn3) wAc wA.le (by positivity)
  have F2 : (n:ℝ)^2 * (uu * A) ≤ (n:ℝ)^3 * (uu * (A^2/c)) := mul_le_mul hn3 wAc wA.le (by positivity)
  have sq' : Apx (Arith.sqrt quad) (Real.sqrt Q) (109 * ((n:ℝ)^3 * (uu * (A^2/c)))) := sq.mono (by rw [ediv]; linarith)
  have madd := (S.mid (x := 8 * (n:ℝ)) (by linarith) (by linarith)).1
  have nb : Apx (Arith.neg (Arith.mul (Arith.ofRat (-2) 1) sT)) (2 * σ) (8 * (n:ℝ)^2 * (uu * A)) := by
    have := neg_apx bb'
    have e : -(-2 * σ) = 2 * σ := by ring
    rwa [e] at this
  have hsq0 := Real.sqrt_nonneg Q
  have G1 : 109 * ((n:ℝ)^3 * (uu * (A^2/c))) ≤ 2 * c := by
    have : 105 * ((n:ℝ)^3 * (uu * (A^2/c))) ≤ c := by rw [← ediv]; exact hEc
    linarith
  have nc : c ≤ n * A := le_trans hcA nA
  have G2 : 8 * (n:ℝ)^2 * (uu * A) ≤ A / 25 := by linarith
  have num := add_apx nb sq' madd (by
    rw [abs_of_nonneg (by linarith)]; linarith)
  have num' : Apx (Arith.add (Arith.neg (Arith.mul (Arith.ofRat (-2) 1) sT)) (Arith.sqrt quad)) (2 * σ + Real.sqrt Q) (125 * ((n:ℝ)^3 * (uu * (A^2/c)))) :=
    num.mono (by linarith)
  have e2' : (Arith.ofRat 2 1 : F64 R).1 = .fin ((2:Nat):ℝ) := by have := ofRat_exact (R := R) (p := 2) (by norm_num); simpa using this
  have e2n := mul_exact e2' en (by
    have : (2:ℝ) * (n:ℝ) < 2^53 := by linarith
    exact_mod_cast this)
  have e2n' : (Arith.mul (Arith.ofRat 2 1) (Arith.ofNat n) : F64 R).1 = .fin (2 * (n:ℝ)) := by rw [e2n]; push_cast; rfl
  have md := (S.mid (x := 4) (by norm_num) (by norm_num)).1
  have h2n : (0:ℝ) < 2 * n := by linarith
  have ed2 : 125 * ((n:ℝ)^3 * (uu * (A^2/c))) / (2 * n) = 125 / 2 * ((n:ℝ)^2 * (uu * (A^2/c))) := by field_simp
  have G3 : 125 * ((n:ℝ)^3 * (uu * (A^2/c))) / (2 * n) ≤ A := by
    rw [div_le_iff₀ h2n]
    have : 105 * ((n:ℝ)^3 * (uu * (A^2/c))) ≤ c := by rw [← ediv]; exact hEc
    linarith
  have fin := div_apx num' e2n' h2n md (by
    rw [abs_of_nonneg (by positivity)]
    have : (2 * σ + Real.sqrt Q) / (2 * n) ≤ 3 * A := by
      rw [div_le_iff₀ h2n]; linarith
    linarith)
  refine fin.mono ?_
  have ed3 : 67 * (n:ℝ)^2 * uu * A^2 / c = 67 * ((n:ℝ)^2 * (uu * (A^2/c))) := by field_simp
  rw [ed2, ed3]
  have F3 : 1 * (uu * A) ≤ (n:ℝ)^2 * (uu * (A^2/c)) := mul_le_mul hn1' wAc wA.le (by positivity)
  linarith

end F64
end FMV
