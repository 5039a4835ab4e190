import Verif.Props.Analyze
import Verif.Props.CutLog
import Verif.Props.MatlabSave
import Verif.Props.F64
import Verif.Lemmas.F64Err
/-
C117: the analysis script in doubles.
-/
namespace FMV
namespace Decimal
open Console Text FMV.IO Spec Shape Matlab Arith
variable {R : Rounding}

/-- a sum of whole numbers is exact -/
theorem sum_exact {α : Type} (f : α → F64 R) (m : α → ℕ) (h : ∀ a, (f a).1 = .fin (m a : ℝ)) : ∀ (l : List α) (x : F64 R) (n : ℕ), x.1 = .fin (n : ℝ) → n + (l.map m).sum < 2^53 →
    ((l.map f).foldl add x).1 = .fin ((n + (l.map m).sum : ℕ) : ℝ) := by
  intro l
  induction l with
  | nil => intro x n hx _; simpa using hx
  | cons a l ih =>
    intro x n hx hlt
    rw [List.map_cons, List.sum_cons] at hlt
    rw [List.map_cons, List.map_cons, List.foldl_cons, List.sum_cons, ← Nat.add_assoc]
    refine ih _ _ ?_ (by omega)
    show (F64.rnd R (XR.add x.1 (f a).1)).1 = _
    rw [hx, h a]
    show R.rd ((n:ℝ) + m a) = _
    rw [← Nat.cast_add]
    exact R.exact _ (isDouble_nat (by omega))

/-- a product of positive whole numbers is exact -/
theorem prod_exact : ∀ (l : List ℕ) (x : F64 R) (n : ℕ), x.1 = .fin (n : ℝ) → 0 < n → (∀ d ∈ l, 0 < d) → n * l.prod < 2^53 → ((l.map ofNat).foldl mul x).1 = .fin ((n * l.prod : ℕ) : ℝ) := by
  intro l
  induction l with
  | nil => intro x n hx _ _ _; simpa using hx
  | cons a l ih =>
    intro x n hx hn hpos hlt
    rw [List.prod_cons, ← Nat.mul_assoc] at hlt
    rw [List.map_cons, List.foldl_cons, List.prod_cons, ← Nat.mul_assoc]
    have hp : 0 < l.prod := List.prod_pos (fun d hd => hpos d (List.mem_cons_of_mem _ hd))
    have ha : 0 < a := hpos a List.mem_cons_self
    have h1 : n * a < 2^53 := lt_of_le_of_lt (Nat.le_mul_of_pos_right _ hp) hlt
    have h2 : a < 2^53 := lt_of_le_of_lt (Nat.le_mul_of_pos_left _ hn) h1
    exact ih _ _ (F64.mul_exact hx (ofNat_val h2) h1) (Nat.mul_pos hn ha) (fun d hd => hpos d (List.mem_cons_of_mem _ hd)) hlt

/-- a whole number of at most six digits is read exactly -/
theorem whole_keep {x : F64 R} {m : ℕ} (h : x.1 = .fin (m : ℝ)) (hm : m < 10^6) : asRead x = x := by
  have hd : SixDigits (m : ℝ) := ⟨m, 0, by rw [Nat.abs_cast]; exact_mod_cast hm, by simp⟩
  have hu : (m : ℝ) = 0 ∨ Usual (m : ℝ) := by
    rcases Nat.eq_zero_or_pos m with rfl | h0
    · left; simp
    · right
      have a : (1:ℝ) ≤ m := by exact_mod_cast h0
      have b : (m:ℝ) < 10^6 := by exact_mod_cast hm
      exact usual_of (by rw [Nat.abs_cast]; linarith) (by rw [Nat.abs_cast]; linarith)
  rw [asRead_reload h]
  unfold reload
  rw [(C112_keeps x hd hu (by rw [h, R.exact _ (isDouble_nat (lt_trans hm (by norm_num)))])).2]

theorem mean_exact (n : ℕ) (hn : n < 2^32) (hn0 : n ≠ 0) (f : ℕ → F64 R) (m : ℕ → ℕ) (h : ∀ a, (f a).1 = .fin (m a : ℝ)) (hs : ((List.range n).map m).sum < 2^53) :
    (div (((List.range n).map f).foldl add zero) (ofNat n)).1 = R.rd ((((List.range n).map m).sum : ℝ) / n) := by
  have e := sum_exact f m h (List.range n) zero 0 (by rw [Nat.cast_zero]; rfl) (by omega)
  rw [Nat.zero_add] at e
  show (F64.rnd R (XR.div _ _)).1 = _
  rw [e, ofNat_val (by omega)]
  show (F64.rnd R (if (n:ℝ) = 0 then _ else _)).1 = _
  rw [if_neg (by exact_mod_cast hn0)]
  rfl

theorem sum_lt (n : ℕ) (hn : n < 2^32) (m : ℕ → ℕ) (h : ∀ a, m a < 10^6) : ((List.range n).map m).sum < 2^53 := by
  have : ((List.range n).map m).sum ≤ ((List.range n).map m).length * 10^6 := by
    have := List.sum_le_card_nsmul ((List.range n).map m) (10^6) (fun x hx => by
      obtain ⟨a, -, rfl⟩ := List.mem_map.1 hx
      exact (h a).le)
    simpa using this
  rw [List.length_map, List.length_range] at this
  omega

/-- **C117**: let benchmarks have been run as in C104, and let the `n`-th run of the `i`-th have taken `ms i n` whole milliseconds, less than 1000 seconds. Then what the script plots in doubles is, for every benchmark,
exactly the number of cells of its grid, and, for every solver, the mean of the times with one rounding only. -/
theorem _root_.FMV.C117_means_partial (pop : FMM.St (F64 R) → Nat → Prop) (k : Nat) (hk : 0 < k) (b : Nat → Bench) (x : Nat → Nat → F64 R) (ms : Nat → Nat → Nat) (t t' : Nat → Bench.St (F64 R))
    (dims : Nat → List Nat) (names : List Str) (fname : Nat → Str) (d0 d1 : Entry) (hms : ∀ i n, (x i n).1 = .fin (ms i n : ℝ)) (hsmall : ∀ i n, ms i n < 10^6)
    (h : ∀ i, i < k → Bench.Runs pop (b i) (fun n => fmtG (x i n)) (t i) (t' i)) (hsh : ∀ i, i < k → (t i).w.grid.shape = Shape.mk' (dims i)) (hf : ∀ i, i < k → Fits (dims i) (2^32))
    (hb : ∀ i, i < k → (t i).runID + (b i).solvers.length * (b i).nruns < 2^32) (h0 : ∀ i, i < k → (t i).log = []) (hruns : ∀ i, i < k → (b i).nruns ≠ 0)
    (hlt : ∀ i, i < k → (b i).nruns < 2^32 ∧ (dims i).length < 2^32 ∧ (∀ d ∈ dims i, d < 2^32) ∧ (b i).pts.length < 2^32 ∧ (∀ p ∈ (b i).pts, p < 2^32) ∧ (b i).goal < 2^32)
    (hname : ∀ i, i < k → (b i).name ≠ [] ∧ ∀ c ∈ (b i).name, isSpace c = false) (hsame : ∀ i, i < k → (b i).solvers.map Prod.snd = names)
    (hnames : ∀ s ∈ names, s ≠ [] ∧ ∀ c ∈ s, isSpace c = false) :
    ∃ r, analyze (matlabNum R) (F64.rnd R .nan) matlabNat (d0 :: d1 :: (List.range k).map (fun i => ⟨fname i, some (t' i).log⟩)) = some r ∧ r.algs = names ∧ r.times.rows = names.length ∧
      r.ncells.length = k ∧ (∀ i, i < k → ∃ c, r.ncells[i]? = some c ∧ c.1 = .fin ((dims i).prod : ℝ)) ∧
      ∀ i j, i < k → j < names.length →
        (r.times.get j i).1 = R.rd ((((List.range (b i).nruns).map (fun n => ms i ((t i).runID + 1 + (j * (b i).nruns + n)))).sum : ℝ) / (b i).nruns) := by
  obtain ⟨r, r1, r2, r3, r4, r5⟩ := C104_analysis (matlabNum R) (F64.rnd R .nan) matlabNat C112_matlab_numbers (by rfl) pop k hk b (fun i n => fmtG (x i n)) (fun i n => asRead (x i n)) t t' dims names
    fname d0 d1 h hsh hb h0 hruns hlt hname hsame hnames (fun i _ n => readAs (x i n))
  refine ⟨r, r1, r3, r4, by rw [r2]; simp, fun i hi => ?_, fun i j hi hj => ?_⟩
  · refine ⟨_, by rw [r2, List.getElem?_map, List.getElem?_range hi]; rfl, ?_⟩
    have hfi := hf i hi
    have := prod_exact (R := R) (dims i) one 1 (by rw [Nat.cast_one]; rfl) (by norm_num) hfi.pos (by have := hfi.lt; omega)
    rw [Nat.one_mul] at this
    exact this
  · rw [r5 i j hi hj]
    exact mean_exact _ (hlt i hi).1 (hruns i hi) _ (fun n => ms i ((t i).runID + 1 + (j * (b i).nruns + n))) (fun a => by rw [whole_keep (hms _ _) (hsmall _ _)]; exact hms _ _)
      (sum_lt _ (hlt i hi).1 _ (fun a => hsmall _ _))

/-- **C117**, refuted for longer times: a benchmark of one run per solver, in which every run took 1234567 ms (about twenty minutes), is plotted with a mean of 1234570 ms. -/
theorem _root_.FMV.C117_refuted_long (pop : FMM.St (F64 R) → Nat → Prop) (b : Bench) (x : F64 R) (t t' : Bench.St (F64 R)) (dims : List Nat) (fname : Str) (d0 d1 : Entry) (hx : x.1 = .fin 1234567)
    (h : Bench.Runs pop b (fun _ => fmtG x) t t') (hsh : t.w.grid.shape = Shape.mk' dims) (hb : t.runID + b.solvers.length * b.nruns < 2^32) (h0 : t.log = []) (hruns : b.nruns = 1)
    (hlt : dims.length < 2^32 ∧ (∀ d ∈ dims, d < 2^32) ∧ b.pts.length < 2^32 ∧ (∀ p ∈ b.pts, p < 2^32) ∧ b.goal < 2^32) (hname : b.name ≠ [] ∧ ∀ c ∈ b.name, isSpace c = false)
    (hnames : ∀ s ∈ b.solvers, s.2 ≠ [] ∧ ∀ c ∈ s.2, isSpace c = false) :
    ∃ r, analyze (matlabNum R) (F64.rnd R .nan) matlabNat [d0, d1, ⟨fname, some t'.log⟩] = some r ∧ ∀ j, j < b.solvers.length → (r.times.get j 0).1 = .fin 1234570 := by
  obtain ⟨r, r1, -, -, -, r5⟩ := C104_analysis (matlabNum R) (F64.rnd R .nan) matlabNat C112_matlab_numbers (by rfl) pop 1 (by norm_num) (fun _ => b) (fun _ _ => fmtG x) (fun _ _ => asRead x)
    (fun _ => t) (fun _ => t') (fun _ => dims) (b.solvers.map Prod.snd) (fun _ => fname) d0 d1 (fun _ _ => h) (fun _ _ => hsh) (fun _ _ => hb) (fun _ _ => h0) (fun _ _ => by omega)
    (fun _ _ => ⟨by omega, hlt⟩) (fun _ _ => hname) (fun _ _ => rfl) (fun s hs => by obtain ⟨q, hq, rfl⟩ := List.mem_map.1 hs; exact hnames q hq) (fun _ _ _ => readAs x)
  refine ⟨r, r1, fun j hj => ?_⟩
  have hval : (asRead x).1 = .fin ((1234570 : ℕ) : ℝ) := by
    unfold asRead
    rw [hx]
    show R.rd (dec 1234567) = _
    have e : dec 1234567 = ((1234570 : ℕ) : ℝ) := by
      rw [dec_of_pos (by norm_num)]
      have := decPos_mid (m := 123457) (X := 6) (y := 1234567) (by norm_num) (by norm_num) (by rw [abs_lt]; constructor <;> norm_num)
      rw [this]; norm_num
    rw [e]
    exact R.exact _ (isDouble_nat (by norm_num))
  rw [r5 0 j (by norm_num) (by simpa using hj)]
  have := mean_exact (R := R) b.nruns (by omega) (by omega) (fun _ => asRead x) (fun _ => 1234570) (fun _ => hval) (by rw [hruns]; decide)
  rw [this, hruns]
  have e : (((List.range 1).map (fun _ => 1234570)).sum : ℕ) = 1234570 := by decide
  rw [e, Nat.cast_one, div_one, R.exact _ (isDouble_nat (by norm_num))]
  norm_num

end Decimal
end FMV

namespace FMV.Decimal
open Console Text FMV.IO Spec Shape Matlab Arith
variable {R : Rounding}
/-- non-vacuity of `C117_means_partial` and `C117_refuted_long`: the benchmark of `Bench.exRunOf`, whose run took 17 ms, and 1234567 ms -/
example : (∃ r, ∃ log : Str, analyze (matlabNum R) (F64.rnd R .nan) matlabNat [⟨['.'], none⟩, ⟨['.', '.'], none⟩, ⟨"bm.log".toList, some log⟩] = some r ∧ (r.times.get 0 0).1 = .fin 17) ∧
    ∃ r, ∃ log : Str, analyze (matlabNum R) (F64.rnd R .nan) matlabNat [⟨['.'], none⟩, ⟨['.', '.'], none⟩, ⟨"bm.log".toList, some log⟩] = some r ∧ (r.times.get 0 0).1 = .fin 1234570 := by
  have h1 : lt (one : F64 R) margin = false := by
    refine decide_eq_false ?_
    rw [not_lt]
    unfold XR.eps; norm_num
  constructor
  · obtain ⟨t', h⟩ := Bench.exRunOf (F64.lt_laws R) h1 (fun _ => fmtG (ofNat 17 : F64 R))
    obtain ⟨r, r1, -, -, -, -, r5⟩ := C117_means_partial FMM.IsTop 1 (by norm_num) (fun _ => ⟨[(0, "FMM".toList)], [0], noGoal, 1, 2, "bm".toList⟩) (fun _ _ => ofNat 17) (fun _ _ => 17) (fun _ => _)
      (fun _ => t') (fun _ => [2,2]) ["FMM".toList] (fun _ => "bm.log".toList) ⟨['.'], none⟩ ⟨['.', '.'], none⟩ (fun _ _ => ofNat_val (by norm_num)) (fun _ _ => by norm_num) (fun _ _ => h)
      (fun _ _ => rfl) (fun _ _ => ⟨by decide, by decide, by decide⟩) (fun _ _ => by show 0 + 1 * 1 < _; norm_num) (fun _ _ => rfl) (fun _ _ => by show 1 ≠ 0; norm_num) (fun _ _ => by decide)
      (fun _ _ => by decide) (fun _ _ => rfl) (by decide)
    refine ⟨r, t'.log, r1, ?_⟩
    rw [r5 0 0 (by norm_num) (by decide)]
    show R.rd (((17 + 0 : ℕ) : ℝ) / ((1:ℕ):ℝ)) = _
    rw [Nat.cast_one, div_one, R.exact _ (isDouble_nat (by norm_num))]
    norm_num
  · have hx : (ofNat 1234567 : F64 R).1 = .fin 1234567 := by rw [ofNat_val (by norm_num)]; norm_num
    obtain ⟨t', h⟩ := Bench.exRunOf (F64.lt_laws R) h1 (fun _ => fmtG (ofNat 1234567 : F64 R))
    obtain ⟨r, r1, r2⟩ := C117_refuted_long FMM.IsTop ⟨[(0, "FMM".toList)], [0], noGoal, 1, 2, "bm".toList⟩ (ofNat 1234567) _ t' [2,2] "bm.log".toList ⟨['.'], none⟩ ⟨['.', '.'], none⟩ hx h rfl
      (by show 0 + 1 * 1 < _; norm_num) rfl rfl (by decide) (by decide) (by decide)
    exact ⟨r, t'.log, r1, r2 0 (by decide)⟩
end FMV.Decimal
