import Verif.Model.MatlabSave
import Verif.Spec.MatlabSave
import Verif.Props.MatlabF64
import Verif.Props.SavedMap
/-
C116: maps that go to MATLAB and back.
-/
namespace FMV
namespace Decimal
open Console Text FMV.IO Spec Shape Matlab
variable {R : Rounding}

/-- the number printed by `%.pf` -/
noncomputable def fixV (p : Nat) (x : ℝ) : ℝ := (if x < 0 then -1 else 1) * (roundEven (|x| * 10^p) : ℝ) / 10^p

theorem roundEven_nonneg {x : ℝ} (h : 0 ≤ x) : 0 ≤ roundEven x := by
  have := roundEven_mono h
  have h0 : roundEven 0 = 0 := by simpa using roundEven_int 0
  rwa [h0] at this

theorem fixV_nearest (p : Nat) (x : ℝ) : NearestDecimals p x (fixV p x) := by
  have hp : (0:ℝ) < 10^p := by positivity
  have key : ∀ y : ℝ, ∀ m : ℤ, |(roundEven (y * 10^p) : ℝ) / 10^p - y| ≤ |(m:ℝ) / 10^p - y| := by
    intro y m
    have h := roundEven_nearest (y * 10^p) m
    have e : ∀ z : ℝ, |z / 10^p - y| = |z - y * 10^p| / 10^p := fun z => by
      rw [show z / 10^p - y = (z - y * 10^p) / 10^p by field_simp, abs_div, abs_of_pos hp]
    rw [e, e]
    exact div_le_div_of_nonneg_right h hp.le
  constructor
  · unfold fixV
    split
    · exact ⟨-roundEven (|x| * 10^p), by push_cast; ring⟩
    · exact ⟨roundEven (|x| * 10^p), by ring⟩
  · rintro t ⟨m, rfl⟩
    unfold fixV
    split
    · rename_i h
      have := key (-x) (-m)
      rw [abs_of_neg h, ← abs_neg, show -(-1 * (roundEven (-x * 10^p) : ℝ) / 10^p - x) = (roundEven (-x * 10^p) : ℝ) / 10^p - -x by ring]
      refine this.trans (le_of_eq ?_)
      rw [← abs_neg]; push_cast; congr 1; ring
    · rename_i h
      rw [abs_of_nonneg (not_lt.1 h), one_mul]
      exact key x m

theorem fixV_err (p : Nat) (x : ℝ) : |fixV p x - x| ≤ 1 / 2 / 10^p := by
  have hp : (0:ℝ) < 10^p := by positivity
  have h := roundEven_err (|x| * 10^p)
  have e : |fixV p x - x| = |(roundEven (|x| * 10^p) : ℝ) - |x| * 10^p| / 10^p := by
    unfold fixV
    split
    · rename_i hx
      rw [abs_of_neg hx, ← abs_neg, show -(-1 * (roundEven (-x * 10^p) : ℝ) / 10^p - x) = ((roundEven (-x * 10^p) : ℝ) - -x * 10^p) / 10^p by field_simp; ring, abs_div, abs_of_pos hp]
    · rename_i hx
      rw [abs_of_nonneg (not_lt.1 hx), one_mul, show (roundEven (x * 10^p) : ℝ) / 10^p - x = ((roundEven (x * 10^p) : ℝ) - x * 10^p) / 10^p by field_simp, abs_div, abs_of_pos hp]
  rw [e]
  exact div_le_div_of_nonneg_right h hp.le

theorem fixText_value {p n : Nat} {sign : Str} (hsign : sign = [] ∨ sign = ['-']) :
    FloatText (sign ++ fixText p n) ∧ TextValue (sign ++ fixText p n) ((if sign = [] then 1 else -1) * (n:ℝ) / 10^p) ∧
      ∃ m k, parse (sign ++ fixText p n) = some (m, k) ∧ (m:ℝ) * (10:ℝ)^k = (if sign = [] then 1 else -1) * (n:ℝ) / 10^p := by
  have hl := padded_length (p + 1) n
  have hd := padded_number (p + 1) n
  set s := padded (p + 1) n with hs
  have hint : IsNumber (s.take (s.length - p)) := by
    refine ⟨?_, fun c hc => hd.2 c (List.mem_of_mem_take hc)⟩
    intro h
    have := congrArg List.length h
    rw [List.length_take, List.length_nil] at this
    omega
  have hf : Digits (s.drop (s.length - p)) := fun c hc => hd.2 c (List.mem_of_mem_drop hc)
  have hn : readNat (s.take (s.length - p) ++ s.drop (s.length - p)) = n := by rw [List.take_append_drop, hs, read_padded]
  have hlen : (s.drop (s.length - p)).length = p := by rw [List.length_drop]; omega
  have e : ∀ c : ℝ, c * (n:ℝ) * (10:ℝ)^((0:ℤ) - (p:ℤ)) = c * n / 10^p := fun c => by
    rw [zero_sub, zpow_neg, zpow_natCast]; rfl
  have t : sign ++ fixText p n = sign ++ s.take (s.length - p) ++ point (s.drop (s.length - p)) ++ [] := by
    rw [List.append_nil, List.append_assoc]; rfl
  rw [t]
  refine ⟨parts_text hsign hint hf (.inl rfl), ?_, _, _, parse_parts hsign hint hf (.inl ⟨rfl, rfl⟩), ?_⟩
  · have := textValue_parts hsign hint hf (.inl ⟨rfl, rfl⟩)
    rwa [hn, hlen, e] at this
  · rw [hn, hlen, ← e]
    split <;> push_cast <;> ring

theorem fmtF_value (p : Nat) {x : F64 R} {r : ℝ} (h : x.1 = .fin r) :
    FloatText (fmtF p x) ∧ TextValue (fmtF p x) (fixV p r) ∧ ∃ m k, parse (fmtF p x) = some (m, k) ∧ (m:ℝ) * (10:ℝ)^k = fixV p r := by
  have hn : 0 ≤ roundEven (|r| * 10^p) := roundEven_nonneg (by positivity)
  have hc : ((roundEven (|r| * 10^p)).toNat : ℝ) = roundEven (|r| * 10^p) := by exact_mod_cast Int.toNat_of_nonneg hn
  unfold fmtF fixV
  simp only [h]
  by_cases hr : r < 0
  · have := fixText_value (p := p) (n := (roundEven (|r| * 10^p)).toNat) (sign := ['-']) (.inr rfl)
    rw [hc] at this
    simpa [hr] using this
  · have := fixText_value (p := p) (n := (roundEven (|r| * 10^p)).toNat) (sign := []) (.inl rfl)
    rw [hc] at this
    simpa [hr] using this

/-- far from overflow -/
def Moderate (r : ℝ) : Prop := |r| ≤ (2:ℝ)^(300:ℤ)

theorem rd_fix (p : Nat) {r : ℝ} (hm : Moderate r) : ∃ y, R.rd (fixV p r) = .fin y ∧ |y - fixV p r| ≤ uu * (2:ℝ)^(301:ℤ) := by
  have h1 : (1:ℝ) ≤ (2:ℝ)^(300:ℤ) := by
    have : (2:ℝ)^(0:ℤ) ≤ (2:ℝ)^(300:ℤ) := zpow_le_zpow_right₀ (by norm_num) (by norm_num)
    simpa using this
  have hp : (1:ℝ) ≤ 10^p := one_le_pow₀ (by norm_num)
  have he : |fixV p r| ≤ (2:ℝ)^(301:ℤ) := by
    have a := fixV_err p r
    have b : (1:ℝ) / 2 / 10^p ≤ 1 := by rw [div_le_one (by positivity)]; linarith
    have c := abs_sub_abs_le_abs_sub (fixV p r) r
    have e : (2:ℝ)^(301:ℤ) = 2 * (2:ℝ)^(300:ℤ) := by rw [← zpow_one_add₀ (by norm_num)]; norm_num
    unfold Moderate at hm
    rw [e]
    generalize (2:ℝ)^(300:ℤ) = X at *
    have c' := c.trans (a.trans b)
    clear e a b c hp
    generalize |fixV p r| = Z at *
    generalize |r| = W at *
    linarith
  exact rd_err R he (zpow_le_zpow_right₀ (by norm_num) (by norm_num)) (zpow_le_zpow_right₀ (by norm_num) (by norm_num))

/-- what is loaded where MATLAB has written `x` with `%.pf` -/
noncomputable def refix (p : Nat) (x : F64 R) : F64 R := (conv R (fmtF p x)).1

theorem prints_refix (p : Nat) {x : F64 R} {r : ℝ} (h : x.1 = .fin r) (hm : Moderate r) : Prints (fmtF p) (conv R) x (refix p x) ∧ (refix p x).1 = R.rd (fixV p r) := by
  obtain ⟨f, -, n, k, h1, h2⟩ := fmtF_value p h
  obtain ⟨y, hy, -⟩ := rd_fix (R := R) p hm
  have hc : conv R (fmtF p x) = (F64.rnd R (.fin (fixV p r)), true) := by
    unfold conv
    rw [h1]
    simp only [h2]
    have : (F64.rnd R (.fin (fixV p r))).1 = .fin y := hy
    rw [this]
  refine ⟨⟨f, ?_⟩, ?_⟩
  · unfold refix; rw [hc]
  · unfold refix; rw [hc]; rfl

theorem leafText_reads (l : Option (F64 R)) (hl : ∀ x ∈ l, ∃ r, x.1 = .fin r ∧ Moderate r) : ∃ y, (FloatText (leafText l) ∧ conv R (leafText l) = (y, true)) ∧
    match l with
    | none => y.1 = .fin 1
    | some x => ∀ r, x.1 = .fin r → ∃ d, NearestDecimals 6 r d ∧ y.1 = R.rd d := by
  cases l with
  | some x =>
    obtain ⟨r, h, hm⟩ := hl x rfl
    obtain ⟨h1, h2⟩ := prints_refix 6 h hm
    refine ⟨_, h1, fun r' h' => ?_⟩
    rw [h] at h'
    obtain rfl : r = r' := by injection h'
    exact ⟨_, fixV_nearest 6 r, h2⟩
  | none =>
    have hp : parse "1.0".toList = some (10, -1) := by decide
    have hv : (F64.rnd R (.fin (((10:ℤ):ℝ) * (10:ℝ)^(-1:ℤ)))).1 = .fin 1 := by
      show R.rd _ = _
      rw [show ((10:ℤ):ℝ) * (10:ℝ)^(-1:ℤ) = 1 by norm_num]
      exact R.exact 1 IsDouble.one
    refine ⟨F64.rnd R (.fin (((10:ℤ):ℝ) * (10:ℝ)^(-1:ℤ))), ⟨?_, ?_⟩, hv⟩
    · have := parts_text (sign := []) (int := ['1']) (f := ['0']) (exp := []) (.inl rfl) ⟨by simp, by decide⟩ (by intro c hc; rw [List.mem_singleton.1 hc]; decide) (.inl rfl)
      exact this
    · show conv R "1.0".toList = _
      unfold conv
      rw [hp]
      simp only [hv]

/-- which numbers are obstacles after they were written with two decimals -/
theorem refix_occupied {x : F64 R} {r : ℝ} (h : x.1 = .fin r) (hm : Moderate r) : (r < 1 / 200 → Arith.lt (refix 2 x) Arith.margin = true) ∧ (1 / 200 < r → Arith.lt (refix 2 x) Arith.margin = false) := by
  obtain ⟨-, h2⟩ := prints_refix 2 h hm
  obtain ⟨y, hy, -⟩ := rd_fix (R := R) 2 hm
  have ep := XR.eps_pos
  constructor
  · intro hr
    have hd : fixV 2 r ≤ 0 := by
      unfold fixV
      split
      · have : (0:ℝ) ≤ roundEven (|r| * 10^2) := by exact_mod_cast roundEven_nonneg (by positivity)
        have : (0:ℝ) ≤ (roundEven (|r| * 10^2) : ℝ) / 10^2 := by positivity
        rw [mul_div_assoc]; linarith
      · rename_i h0
        rw [abs_of_nonneg (not_lt.1 h0), roundEven_unique (n := 0) (by rw [Int.cast_zero, sub_zero, abs_of_nonneg (by have := not_lt.1 h0; positivity)]; linarith)]
        simp
    have := R.mono _ _ hd
    rw [hy, R.exact 0 IsDouble.zero] at this
    have hy0 : y ≤ 0 := by simpa [XR.le] using this
    show XR.lt (refix 2 x).1 (.fin XR.eps) = true
    rw [h2, hy]
    simpa [XR.lt] using lt_of_le_of_lt hy0 ep
  · intro hr
    have hd : XR.eps ≤ fixV 2 r := by
      unfold fixV
      rw [if_neg (by linarith), one_mul, abs_of_pos (by linarith : 0 < r)]
      have : 1 ≤ roundEven (r * 10^2) := by
        by_contra hc
        have h1 := (abs_le.1 (roundEven_err (r * 10^2))).1
        have h3 : (roundEven (r * 10^2) : ℝ) ≤ 0 := by exact_mod_cast (by omega : roundEven (r * 10^2) ≤ 0)
        clear hy h2 hm h hc
        generalize (roundEven (r * 10^2) : ℝ) = Z at *
        norm_num at h1 hr
        linarith
      have : (1:ℝ) ≤ (roundEven (r * 10^2) : ℝ) := by exact_mod_cast this
      have : (1:ℝ) / 10^2 ≤ (roundEven (r * 10^2) : ℝ) / 10^2 := div_le_div_of_nonneg_right this (by norm_num)
      refine le_trans ?_ this
      unfold XR.eps; norm_num
    have := R.mono _ _ hd
    rw [hy, R.exact _ IsDouble.eps] at this
    have hy0 : XR.eps ≤ y := by simpa [XR.le] using this
    show XR.lt (refix 2 x).1 (.fin XR.eps) = false
    rw [h2, hy]
    simpa [XR.lt] using hy0

/-- **C116**: the map that `loadMapFromText` makes of a file written by saveGridToFile.m has the sizes of the array; its leaf size is the one given, to six decimals, or 1; every speed is the nearest number
with two decimals (rounded to a double); and a cell is an obstacle if its number is below 0.005, and free if it is above. -/
theorem _root_.FMV.C116_matlab_map (a : Arr (F64 R)) (leaf : Option (F64 R)) (g0 : Grid (F64 R)) (junk : LoadJunk (F64 R)) (hf : Fits a.dims (2^32)) (hnd : a.dims.length < 2^64)
    (hl : ∀ x ∈ leaf, ∃ r, x.1 = .fin r ∧ Moderate r) (v : List Nat → ℝ) (hv : ∀ cs, InBox a.dims cs → (a.get cs).1 = .fin (v cs) ∧ Moderate (v cs)) :
    ∃ g', loadMapFromText (conv R) a.dims.length junk (some (saveGridToFile (fmtF 2) (leafText leaf) a)) g0 = .returned 1 g' ∧ g'.shape = Shape.mk' a.dims ∧
      (leaf = none → g'.leaf.1 = .fin 1) ∧ (∀ x r, leaf = some x → x.1 = .fin r → ∃ d, NearestDecimals 6 r d ∧ g'.leaf.1 = R.rd d) ∧
      ∀ cs, InBox a.dims cs → (∃ d, NearestDecimals 2 (v cs) d ∧ (g'.vel ((Shape.mk' a.dims).coord2idx cs)).1 = R.rd d) ∧
        (v cs < 1 / 200 → g'.occ ((Shape.mk' a.dims).coord2idx cs) = true) ∧ (1 / 200 < v cs → g'.occ ((Shape.mk' a.dims).coord2idx cs) = false) := by
  obtain ⟨y, hy, hy2⟩ := leafText_reads leaf hl
  obtain ⟨g', h1, h2, h3, h4, -⟩ := C77_save (conv R) (fmtF 2) (leafText leaf) y a (fun cs => refix 2 (a.get cs)) g0 junk hf hnd hy
    (fun cs hcs => (prints_refix 2 (hv cs hcs).1 (hv cs hcs).2).1)
  refine ⟨g', h1, h3, fun e => ?_, fun x r e hx => ?_, fun cs hcs => ?_⟩
  · subst e; rw [h2]; exact hy2
  · subst e; rw [h2]; exact hy2 r hx
  · obtain ⟨e1, e2⟩ := hv cs hcs
    have hvel := h4 cs hcs
    rw [h3] at hvel
    obtain ⟨o1, o2⟩ := refix_occupied e1 e2
    refine ⟨⟨_, fixV_nearest 2 _, by rw [hvel]; exact (prints_refix 2 e1 e2).2⟩, fun h => ?_, fun h => ?_⟩
    · show Arith.lt (g'.vel _) Arith.margin = true
      rw [hvel]; exact o1 h
    · show Arith.lt (g'.vel _) Arith.margin = false
      rw [hvel]; exact o2 h

theorem asRead_reload {x : F64 R} {r : ℝ} (h : x.1 = .fin r) : asRead x = reload x := by
  apply Subtype.ext
  rw [reload_val h]
  unfold asRead; rw [h]; rfl

/-- a double with at most two decimals and six digits -/
def Hundredths (x : F64 R) : Prop := ∃ m : ℤ, |m| < 10^6 ∧ x.1 = R.rd ((m:ℝ) / 100)

theorem hundredths_six {x : F64 R} (h : Hundredths x) : Six x := by
  obtain ⟨m, h1, h2⟩ := h
  refine ⟨m / 100, ⟨m, -2, h1, by rw [zpow_neg]; norm_num [div_eq_mul_inv]⟩, ?_, h2⟩
  rcases eq_or_ne m 0 with rfl | h0
  · left; simp
  · right
    have a : (1:ℝ) ≤ |(m:ℝ)| := by exact_mod_cast Int.one_le_abs h0
    have b : |(m:ℝ)| < 10^6 := by exact_mod_cast h1
    have e : |(m:ℝ) / 100| = |(m:ℝ)| / 100 := by rw [abs_div]; norm_num
    exact usual_of (by rw [e]; linarith) (by rw [e]; linarith)

/-- such a double is not changed -/
theorem hundredths_keep {x : F64 R} (h : Hundredths x) : ∃ r, x.1 = .fin r ∧ Moderate r ∧ asRead x = x ∧ refix 2 x = x := by
  obtain ⟨d, s1, s2, s3⟩ := hundredths_six h
  have hk := (C112_keeps x s1 s2 s3).2
  obtain ⟨m, h1, h2⟩ := h
  have b : |(m:ℝ)| < 10^6 := by exact_mod_cast h1
  have e : |(m:ℝ) / 100| = |(m:ℝ)| / 100 := by rw [abs_div]; norm_num
  have q : (10:ℝ)^4 ≤ (2:ℝ)^(1000:ℤ) := by
    have : (2:ℝ)^(14:ℤ) ≤ (2:ℝ)^(1000:ℤ) := zpow_le_zpow_right₀ (by norm_num) (by norm_num)
    exact le_trans (by norm_num) this
  have q' : (2:ℝ)^(-1000:ℤ) ≤ 10^4 := by
    have : (2:ℝ)^(-1000:ℤ) ≤ (2:ℝ)^(0:ℤ) := zpow_le_zpow_right₀ (by norm_num) (by norm_num)
    exact this.trans (by norm_num)
  obtain ⟨r, hr, her⟩ := rd_err R (r := (m:ℝ) / 100) (B := 10^4) (by rw [e]; linarith) q' q
  have hx : x.1 = .fin r := h2.trans hr
  have hu : uu * 10^4 ≤ 1 / 10^5 := by unfold uu; norm_num
  have hd := abs_le.1 (her.trans hu)
  have bm := abs_lt.1 b
  have hm : Moderate r := by
    have : (2:ℝ)^(14:ℤ) ≤ (2:ℝ)^(300:ℤ) := zpow_le_zpow_right₀ (by norm_num) (by norm_num)
    have w : (2:ℝ)^(14:ℤ) = 16384 := by norm_num
    rw [w] at this
    exact le_trans (abs_le.2 ⟨by linarith [hd.1], by linarith [hd.2]⟩) this
  refine ⟨r, hx, hm, ?_, ?_⟩
  · rw [asRead_reload hx]; unfold reload; rw [hk]
  · apply Subtype.ext
    rw [(prints_refix 2 hx hm).2, h2]
    congr 1
    have key : ∀ (y : ℝ) (k : ℤ), |y - k / 100| ≤ 1 / 10^5 → roundEven (y * 10^2) = k := by
      intro y k hy
      apply roundEven_unique
      have := abs_le.1 hy
      rw [abs_lt]
      constructor <;> linarith
    unfold fixV
    split
    · rename_i hn
      rw [abs_of_neg hn, key (-r) (-m) (by rw [← abs_neg]; push_cast; rw [show -(-r - -(m:ℝ) / 100) = r - m / 100 by ring]; exact abs_le.2 hd)]
      push_cast; ring
    · rename_i hn
      rw [abs_of_nonneg (not_lt.1 hn), key r m (abs_le.2 hd)]
      ring

/-- **C116**: a map that goes to MATLAB and back (saved with `saveVelocities`, read with parseGrid.m, written with saveGridToFile.m and loaded) comes back with the same speeds and obstacles, if it has
three dimensions or more, the last size is not 1, and all speeds have at most two decimals and six digits. -/
theorem _root_.FMV.C116_round_trip_partial (g g0 : Grid (F64 R)) (junk : LoadJunk (F64 R)) (dims : List Nat) (leaf : Option (F64 R)) (hshape : g.shape = Shape.mk' dims) (hf : Fits dims (2^32)) (h3 : dims.length ≠ 2)
    (hnd : dims.length < 2^32) (hlast : dims.getLast? ≠ some 1) (hl : ∀ x ∈ leaf, ∃ r, x.1 = .fin r ∧ Moderate r) (hv : ∀ i < g.size, Hundredths (g.vel i)) :
    ∃ p g', parseGrid (matlabNum R) matlabNat (saveVelocities fmtG g) = some p ∧
      loadMapFromText (conv R) dims.length junk (some (saveGridToFile (fmtF 2) (leafText leaf) p.cells)) g0 = .returned 1 g' ∧ g'.shape = g.shape ∧
      ∀ i < g.size, g'.vel i = g.vel i ∧ g'.occ i = g.occ i := by
  obtain ⟨y, hy, -⟩ := leafText_reads leaf hl
  obtain ⟨p, g', e1, e2, e3, e4⟩ := C77_roundtrip (matlabNum R) matlabNat C112_matlab_numbers fmtG (fmtF 2) (conv R) (fun i => asRead (g.vel i)) g g0 junk dims _ (leafText leaf) y
    (fun i => g.vel i) hshape hf h3 hnd hlast (readAs g.leaf) hy (fun i _ => readAs _) (fun i hi => by
      obtain ⟨r, a1, a2, a3, a4⟩ := hundredths_keep (hv i hi)
      rw [a3]
      have := (prints_refix 2 a1 a2).1
      rwa [a4] at this)
  refine ⟨p, g', e1, e2, e3, fun i hi => ⟨e4 i hi, ?_⟩⟩
  show Arith.lt (g'.vel i) Arith.margin = Arith.lt (g.vel i) Arith.margin
  rw [e4 i hi]

/-- **C116**, refuted for slow cells: on its way to MATLAB and back a free cell with a speed below 0.0049 becomes an obstacle. -/
theorem _root_.FMV.C116_refuted_slow (g g0 : Grid (F64 R)) (junk : LoadJunk (F64 R)) (dims : List Nat) (leaf : Option (F64 R)) (hshape : g.shape = Shape.mk' dims) (hf : Fits dims (2^32)) (h3 : dims.length ≠ 2)
    (hnd : dims.length < 2^32) (hlast : dims.getLast? ≠ some 1) (hl : ∀ x ∈ leaf, ∃ r, x.1 = .fin r ∧ Moderate r) (v : Nat → ℝ)
    (hv : ∀ i < g.size, (g.vel i).1 = .fin (v i) ∧ (v i = 0 ∨ 1 / 10^20 ≤ v i) ∧ v i ≤ 10^20) :
    ∃ p g', parseGrid (matlabNum R) matlabNat (saveVelocities fmtG g) = some p ∧
      loadMapFromText (conv R) dims.length junk (some (saveGridToFile (fmtF 2) (leafText leaf) p.cells)) g0 = .returned 1 g' ∧ g'.shape = g.shape ∧
      ∀ i < g.size, (v i ≤ 49 / 10^4 → g'.occ i = true) ∧ (51 / 10^4 ≤ v i → g'.occ i = false) := by
  obtain ⟨y, hy, -⟩ := leafText_reads leaf hl
  have key : ∀ i < g.size, ∃ r, (asRead (g.vel i)).1 = .fin r ∧ Moderate r ∧ (v i ≤ 49 / 10^4 → r < 1 / 200) ∧ (51 / 10^4 ≤ v i → 1 / 200 < r) := by
    intro i hi
    obtain ⟨a1, a2, a3⟩ := hv i hi
    have w : (10:ℝ)^21 ≤ (2:ℝ)^(300:ℤ) := by
      have : (2:ℝ)^(100:ℤ) ≤ (2:ℝ)^(300:ℤ) := zpow_le_zpow_right₀ (by norm_num) (by norm_num)
      exact le_trans (by norm_num) this
    rw [asRead_reload a1]
    rcases a2 with h0 | h0
    · rw [h0] at a1
      refine ⟨0, ?_, ?_, fun _ => by norm_num, fun h => ?_⟩
      · rw [reload_val a1, dec_zero]; exact R.exact 0 IsDouble.zero
      · unfold Moderate; rw [abs_zero]; exact le_trans (by norm_num) w
      · rw [h0] at h; norm_num at h
    · have hp : 0 < v i := lt_of_lt_of_le (by norm_num) h0
      obtain ⟨r, b1, b2⟩ := reload_close a1 hp (usual_of (by rwa [abs_of_pos hp]) (by rwa [abs_of_pos hp]))
      have c := abs_le.1 b2
      refine ⟨r, b1, ?_, fun h => by linarith, fun h => by linarith⟩
      refine le_trans (abs_le.2 ⟨?_, ?_⟩) w <;> linarith
  obtain ⟨p, g', e1, e2, e3, e4⟩ := C77_roundtrip (matlabNum R) matlabNat C112_matlab_numbers fmtG (fmtF 2) (conv R) (fun i => asRead (g.vel i)) g g0 junk dims _ (leafText leaf) y
    (fun i => refix 2 (asRead (g.vel i))) hshape hf h3 hnd hlast (readAs g.leaf) hy (fun i _ => readAs _) (fun i hi => by
      obtain ⟨r, a1, a2, -⟩ := key i hi
      exact (prints_refix 2 a1 a2).1)
  refine ⟨p, g', e1, e2, e3, fun i hi => ?_⟩
  obtain ⟨r, a1, a2, a3, a4⟩ := key i hi
  obtain ⟨o1, o2⟩ := refix_occupied a1 a2
  refine ⟨fun h => ?_, fun h => ?_⟩
  · show Arith.lt (g'.vel i) Arith.margin = true
    rw [e4 i hi]; exact o1 (a3 h)
  · show Arith.lt (g'.vel i) Arith.margin = false
    rw [e4 i hi]; exact o2 (a4 h)

end Decimal
end FMV

namespace FMV.Decimal
open Spec Shape
/-- non-vacuity of `C116_round_trip_partial` and `C116_refuted_slow`: 2x2x2 maps; in the first all speeds are 0.25, in the second they are 1/1024, and all cells are free -/
example {R : Rounding} : ∃ g g' : Grid (F64 R), g.shape = Shape.mk' [2,2,2] ∧ g'.shape = Shape.mk' [2,2,2] ∧ Fits [2,2,2] (2^32) ∧ ([2,2,2] : List Nat).getLast? ≠ some 1 ∧
    (∀ i < g.size, Hundredths (g.vel i)) ∧ (∀ i, g'.occ i = false) ∧ ∀ i < g'.size, (g'.vel i).1 = .fin (1/1024) ∧ ((1:ℝ)/1024 = 0 ∨ 1 / 10^20 ≤ (1:ℝ)/1024) ∧ (1:ℝ)/1024 ≤ 10^20 ∧ (1:ℝ)/1024 ≤ 49 / 10^4 := by
  have h1 : IsDouble ((1:ℝ)/4) := ⟨1, -2, by norm_num, by norm_num, by norm_num, by norm_num [zpow_neg]⟩
  have h2 : IsDouble ((1:ℝ)/1024) := ⟨1, -10, by norm_num, by norm_num, by norm_num, by norm_num [zpow_neg]⟩
  let x1 : F64 R := ⟨.fin (1/4), fun _ h => by cases h; exact h1⟩
  let x2 : F64 R := ⟨.fin (1/1024), fun _ h => by cases h; exact h2⟩
  let e : Grid (F64 R) := Grid.create [2,2,2] Arith.one (0, 0)
  refine ⟨{ e with cells := fun i => { e.cells i with occupancy := x1 } }, { e with cells := fun i => { e.cells i with occupancy := x2 } }, rfl, rfl, ⟨by decide, by decide, by decide⟩, by decide, ?_, ?_, ?_⟩
  · intro i _
    refine ⟨25, by norm_num, ?_⟩
    show XR.fin (1/4) = _
    rw [show ((25:ℤ):ℝ) / 100 = 1/4 by norm_num]
    exact (R.exact _ h1).symm
  · intro i
    refine decide_eq_false ?_
    rw [not_lt]
    unfold XR.eps; norm_num
  · intro i _
    exact ⟨rfl, .inr (by norm_num), by norm_num, by norm_num⟩
end FMV.Decimal
