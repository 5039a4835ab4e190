import Verif.Model.MatlabNum
import Verif.Props.Decimal
import Verif.Props.MatlabGrid
import Verif.Props.MatlabLog
/-
C112: the numbers MATLAB reads from the library's files.
-/
namespace FMV.Decimal
open Console Text FMV.IO Spec Shape Matlab Arith
variable {R : Rounding}

theorem parse_number {s : Str} (h : IsNumber s) : parse s = some ((readNat s : ℤ), 0) := by
  have := parse_parts (sign := []) (int := s) (f := []) (exp := []) (e := 0) (.inl rfl) h (by intro c hc; cases hc) (.inl ⟨rfl, rfl⟩)
  simpa [point] using this

theorem ofNat_val {n : ℕ} (h : n < 2^53) : (ofNat n : F64 R).1 = .fin (n : ℝ) := by
  show R.rd (((n : ℤ) : ℝ) / ((1:ℕ):ℝ)) = _
  rw [Nat.cast_one, div_one, Int.cast_natCast]
  exact R.exact _ (isDouble_nat h)

/-- **C112**: what C77 and C104 assume of MATLAB's numbers is true of doubles. -/
theorem _root_.FMV.C112_matlab_numbers : MatlabNumbers (matlabNum R) matlabNat := by
  constructor
  · rintro s n hn ⟨h1, rfl⟩
    unfold matlabNum
    rw [parse_number h1]
    simp only [Option.some.injEq]
    apply Subtype.ext
    rw [ofNat_val (lt_trans hn (by norm_num))]
    show R.rd _ = _
    rw [Int.cast_natCast, zpow_zero, mul_one]
    exact R.exact _ (isDouble_nat (lt_trans hn (by norm_num)))
  · intro n hn
    have hn' : n < 2^53 := lt_trans hn (by norm_num)
    have hex : ∃ m : ℕ, m < 2^53 ∧ (ofNat n : F64 R).1 = .fin (m : ℝ) := ⟨n, hn', ofNat_val hn'⟩
    unfold matlabNat
    rw [dif_pos hex]
    have h := (ofNat_val hn').symm.trans hex.choose_spec.2
    have : (n:ℝ) = (hex.choose : ℝ) := by injection h
    rw [show hex.choose = n by exact_mod_cast this.symm]

theorem float_spaceless {t : Str} (h : FloatText t) : ∀ c ∈ t, isSpace c = false := by
  have := scan_float h (r := []) (.inl rfl)
  obtain ⟨sign, int, frac, exp, rfl, hsign, hint, hfrac, hexp⟩ := h
  have hd : ∀ {s : Str}, Digits s → ∀ c ∈ s, isSpace c = false := fun hs c hc => digit_not_space (isDigit_iff.2 (hs c hc))
  intro c hc
  rw [List.mem_append, List.mem_append, List.mem_append] at hc
  rcases hc with ((hc | hc) | hc) | hc
  · rcases hsign with rfl | rfl
    · cases hc
    · rw [List.mem_singleton.1 hc]; decide
  · exact hd hint.2 c hc
  · rcases hfrac with rfl | ⟨f, rfl, hf⟩
    · cases hc
    · rcases List.mem_cons.1 hc with rfl | hc
      · decide
      · exact hd hf c hc
  · rcases hexp with rfl | ⟨sg, e, rfl, hsg, he⟩
    · cases hc
    · rcases List.mem_cons.1 hc with rfl | hc
      · decide
      · rcases List.mem_cons.1 hc with rfl | hc
        · rcases hsg with rfl | rfl <;> decide
        · exact hd he.2 c hc

open Classical in
/-- the number MATLAB reads where `x` was written -/
noncomputable def asRead (x : F64 R) : F64 R :=
  match x.1 with
  | .fin r => F64.rnd R (.fin (dec r))
  | _ => x

theorem asRead_printed (x : F64 R) : Printed x (asRead x) := by
  constructor
  · intro r h
    refine ⟨dec r, dec_nearest r, ?_⟩
    unfold asRead; rw [h]; rfl
  · intro h
    obtain ⟨x, hx⟩ := x
    cases x with
    | fin r => exact absurd rfl (h r)
    | pinf => rfl
    | ninf => rfl
    | nan => rfl

theorem readAs (x : F64 R) : ReadAs (matlabNum R) (fmtG x) (asRead x) := by
  by_cases h : ∃ r, x.1 = .fin r
  · obtain ⟨r, h⟩ := h
    obtain ⟨f, -, n, k, h1, h2⟩ := fmtG_value h
    refine ⟨?_, float_spaceless f, ?_⟩
    · obtain ⟨c, cs, e, -⟩ := float_head f
      rw [e]; simp
    · unfold matlabNum asRead
      rw [h1, h]
      simp only [h2]
  · obtain ⟨x, hx⟩ := x
    cases x with
    | fin r => exact absurd ⟨r, rfl⟩ h
    | pinf => exact ⟨by show "inf".toList ≠ []; decide, by show ∀ c ∈ "inf".toList, _; decide, rfl⟩
    | ninf => exact ⟨by show "-inf".toList ≠ []; decide, by show ∀ c ∈ "-inf".toList, _; decide, rfl⟩
    | nan => exact ⟨by show "nan".toList ≠ []; decide, by show ∀ c ∈ "nan".toList, _; decide, rfl⟩

/-- **C112**: parseGrid.m reads from a file with arrival times in doubles, infinite ones included, for every cell the number with six significant digits nearest to its time. -/
theorem _root_.FMV.C112_matlab_grid (g : Grid (F64 R)) (dims : List Nat) (hshape : g.shape = Shape.mk' dims) (hf : Fits dims (2^32)) (hnd : dims.length < 2^32) :
    ∃ p, parseGrid (matlabNum R) matlabNat (saveGridValues fmtG g) = some p ∧ Printed g.leaf p.leafsize ∧ p.dimsize = dims ∧
      ∀ cs, InBox dims cs → Printed (g.value (g.shape.coord2idx cs)) (p.cells.get (if dims.length = 2 then cs.reverse else cs)) := by
  obtain ⟨p, h1, -, h2, -, h3, -, -, h4⟩ := C77_grid (matlabNum R) matlabNat C112_matlab_numbers fmtG (fun i => asRead (g.value i)) g dims _ hshape hf hnd
    (readAs g.leaf) (fun i _ => readAs _)
  exact ⟨p, h1, h2 ▸ asRead_printed _, h3, fun cs hcs => by rw [h4 cs hcs]; exact asRead_printed _⟩

/-- **C112**: parsepath.m reads from a file with a path, for every coordinate, the number with six significant digits nearest to it, and adds one. -/
theorem _root_.FMV.C112_matlab_path (g : Grid (F64 R)) (dims : List Nat) (path : List (List (F64 R))) (hshape : g.shape = Shape.mk' dims) (hdims : dims ≠ []) (hnd : dims.length < 2^32)
    (hlt : ∀ d ∈ dims, d < 2^32) (hp : ∀ p ∈ path, p.length = dims.length) :
    ∃ M, parsepath (matlabNum R) matlabNat (savePath fmtG g path) = some M ∧ M.rows = path.length ∧ M.cols = dims.length ∧
      ∀ k p j x, path[k]? = some p → p[j]? = some x → ∃ y, Printed x y ∧ M.get k j = add y one := by
  obtain ⟨M, h1, h2, h3, h4⟩ := C77_path (matlabNum R) matlabNat C112_matlab_numbers fmtG asRead g dims path _ hshape hdims hnd hlt (readAs g.leaf)
    (fun p h => ⟨hp p h, fun x _ => readAs x⟩)
  refine ⟨M, h1, h2, h3, fun k p j x hk hj => ⟨asRead x, asRead_printed x, ?_⟩⟩
  rw [h4 k p j x hk hj]
  congr 1
  apply Subtype.ext
  rw [ofNat_val (by norm_num)]
  show XR.fin _ = .fin 1
  rw [Nat.cast_one]

/-- **C112**: parseBenchmarkLog.m reads from the log of a benchmark, for every run, the number with six significant digits nearest to its time. -/
theorem _root_.FMV.C112_matlab_log (pop : FMM.St (F64 R) → Nat → Prop) (b : Bench) (time : Nat → F64 R) (t t' : Bench.St (F64 R))
    (h : Bench.Runs pop b (fun k => fmtG (time k)) t t') (dims : List Nat) (hsh : t.w.grid.shape = Shape.mk' dims)
    (hb : t.runID + b.solvers.length * b.nruns < 2^32) (h0 : t.log = []) (hruns : b.nruns ≠ 0)
    (hlt : b.nruns < 2^32 ∧ dims.length < 2^32 ∧ (∀ d ∈ dims, d < 2^32) ∧ b.pts.length < 2^32 ∧ (∀ p ∈ b.pts, p < 2^32) ∧ b.goal < 2^32)
    (hname : b.name ≠ [] ∧ ∀ c ∈ b.name, isSpace c = false) (hsolvers : ∀ s ∈ b.solvers, s.2 ≠ [] ∧ ∀ c ∈ s.2, isSpace c = false) :
    ∃ bm, parseBenchmarkLog (matlabNum R) (F64.rnd R .nan) matlabNat t'.log = some bm ∧ bm.name = b.name ∧ bm.exp.length = b.solvers.length ∧
      ∀ i s, b.solvers[i]? = some s → ∃ ts, bm.exp[i]? = some (s.2, ts) ∧ ts.length = b.nruns ∧
        ∀ j x, ts[j]? = some x → Printed (time (t.runID + 1 + (i * b.nruns + j))) x := by
  obtain ⟨bm, h1, h2, -, -, -, -, -, -, h3, h4⟩ := C77_log (matlabNum R) (F64.rnd R .nan) matlabNat C112_matlab_numbers rfl pop b _ (fun k => asRead (time k)) t t' h dims hsh hb h0 hruns hlt
    hname hsolvers (fun k => readAs _)
  refine ⟨bm, h1, h2, h3, fun i s hs => ⟨_, h4 i s hs, by simp, fun j x hj => ?_⟩⟩
  rw [List.getElem?_map] at hj
  obtain ⟨a, ha, rfl⟩ := Option.map_eq_some_iff.1 hj
  have : a = j := by
    have := List.getElem?_eq_some_iff.1 ha
    obtain ⟨_, e⟩ := this
    simpa using e.symm
  subst this
  exact asRead_printed _

end FMV.Decimal
