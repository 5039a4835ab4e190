import Verif.Props.MatlabSave
/-
C116, C112: two-dimensional and flat maps that go to MATLAB and back, and paths with velocities, in doubles.
-/
namespace FMV
namespace Decimal
open Console Text FMV.IO Spec Shape Matlab Arith
variable {R : Rounding}

/-- **C116**, refuted for two dimensions: a two-dimensional map whose speeds have at most two decimals and six digits comes back from MATLAB with its two axes exchanged: the cell `(y, x)` has the speed of the cell `(x, y)`. -/
theorem _root_.FMV.C116_refuted_2d (g g0 : Grid (F64 R)) (junk : LoadJunk (F64 R)) (nx ny : Nat) (leaf : Option (F64 R)) (hshape : g.shape = Shape.mk' [nx, ny]) (hf : Fits [nx, ny] (2^32))
    (hl : ∀ x ∈ leaf, ∃ r, x.1 = .fin r ∧ Moderate r) (hv : ∀ i < g.size, Hundredths (g.vel i)) :
    ∃ p g', parseGrid (matlabNum R) matlabNat (saveVelocities fmtG g) = some p ∧
      loadMapFromText (conv R) 2 junk (some (saveGridToFile (fmtF 2) (leafText leaf) p.cells)) g0 = .returned 1 g' ∧ g'.shape = Shape.mk' [ny, nx] ∧
      ∀ x y, x < nx → y < ny → g'.vel (g'.shape.coord2idx [y, x]) = g.vel (g.shape.coord2idx [x, y]) := by
  obtain ⟨y, hy, -⟩ := leafText_reads leaf hl
  refine C77_refuted_2d (matlabNum R) matlabNat C112_matlab_numbers fmtG (fmtF 2) (conv R) g.vel g g0 junk nx ny _ (leafText leaf) y g.vel hshape hf (readAs g.leaf) hy (fun i hi => ?_) (fun i hi => ?_)
  · obtain ⟨r, h1, h2, h3, h4⟩ := hundredths_keep (hv i hi)
    have := readAs (g.vel i)
    rwa [h3] at this
  · obtain ⟨r, h1, h2, h3, h4⟩ := hundredths_keep (hv i hi)
    have := (prints_refix 2 h1 h2).1
    rwa [h4] at this

/-- **C116**, refuted for flat maps: a map with three dimensions whose last size is 1 cannot be loaded any more: the program ends. -/
theorem _root_.FMV.C116_refuted_flat (g g0 : Grid (F64 R)) (junk : LoadJunk (F64 R)) (nx ny : Nat) (leaf : Option (F64 R)) (hshape : g.shape = Shape.mk' [nx, ny, 1]) (hf : Fits [nx, ny, 1] (2^32))
    (hl : ∀ x ∈ leaf, ∃ r, x.1 = .fin r ∧ Moderate r) :
    ∃ p, parseGrid (matlabNum R) matlabNat (saveVelocities fmtG g) = some p ∧
      loadMapFromText (conv R) 3 junk (some (saveGridToFile (fmtF 2) (leafText leaf) p.cells)) g0 = .exited := by
  obtain ⟨y, hy, -⟩ := leafText_reads leaf hl
  exact C77_refuted_flat (matlabNum R) matlabNat C112_matlab_numbers fmtG (fmtF 2) (conv R) (fun i => asRead (g.vel i)) g g0 junk nx ny _ (leafText leaf) y hshape hf (readAs g.leaf) hy
    (fun i _ => readAs _)

/-- **C112**: parsepathvel.m reads from a file with a path and velocities, if the number of points is a multiple of the number of dimensions (otherwise see C77), for every coordinate the number with six
significant digits nearest to it, and adds one; and for every velocity the nearest number. -/
theorem _root_.FMV.C112_matlab_pathvel (g : Grid (F64 R)) (dims : List Nat) (path : List (List (F64 R) × F64 R)) (hshape : g.shape = Shape.mk' dims) (hdims : dims ≠ []) (hnd : dims.length < 2^32)
    (hlt : ∀ d ∈ dims, d < 2^32) (hp : ∀ p ∈ path, p.1.length = dims.length) (hdvd : dims.length ∣ path.length) :
    ∃ M vel, parsepathvel (matlabNum R) matlabNat (savePathVelocity fmtG g path) = some (M, vel) ∧ M.cols = dims.length ∧ vel.length = path.length ∧
      ∀ k p, path[k]? = some p → (∃ v, vel[k]? = some v ∧ Printed p.2 v) ∧ ∀ j x, p.1[j]? = some x → ∃ y, Printed x y ∧ M.get k j = add y one := by
  obtain ⟨M, vel, h1, h2, h3, h4⟩ := C77_pathvel_partial (matlabNum R) matlabNat C112_matlab_numbers fmtG asRead g dims path _ hshape hdims hnd hlt (readAs g.leaf)
    (fun p h => ⟨hp p h, fun x _ => readAs x, readAs p.2⟩) hdvd
  refine ⟨M, vel, h1, h3, by rw [h2, List.length_map], fun k p hk => ⟨⟨asRead p.2, by rw [h2, List.getElem?_map, hk]; rfl, asRead_printed _⟩, fun j x hj => ⟨asRead x, asRead_printed x, ?_⟩⟩⟩
  rw [h4 k p j x hk hj]
  congr 1
  apply Subtype.ext
  rw [ofNat_val (by norm_num)]
  show XR.fin _ = .fin 1
  rw [Nat.cast_one]

/-- non-vacuity of `C116_refuted_2d`, `C116_refuted_flat` and `C112_matlab_pathvel`: a 2x3 map in which all speeds are 0.25, a 2x3x1 map, and a path of two points in a 2x3 grid -/
example : ∃ g g1 : Grid (F64 R), g.shape = Shape.mk' [2,3] ∧ Fits [2,3] (2^32) ∧ (∀ i < g.size, Hundredths (g.vel i)) ∧ g1.shape = Shape.mk' [2,3,1] ∧ Fits [2,3,1] (2^32) ∧
    (∀ x ∈ (some one : Option (F64 R)), ∃ r, x.1 = .fin r ∧ Moderate r) ∧
    (∀ p ∈ ([([zero, one], one), ([one, one], one)] : List (List (F64 R) × F64 R)), p.1.length = [2,3].length) ∧ [2,3].length ∣ ([([zero, one], one), ([one, one], one)] : List (List (F64 R) × F64 R)).length := by
  have h1 : IsDouble ((1:ℝ)/4) := ⟨1, -2, by norm_num, by norm_num, by norm_num, by norm_num [zpow_neg]⟩
  let x1 : F64 R := ⟨.fin (1/4), fun _ h => by cases h; exact h1⟩
  let e : Grid (F64 R) := Grid.create [2,3] Arith.one (0, 0)
  refine ⟨{ e with cells := fun i => { e.cells i with occupancy := x1 } }, Grid.create [2,3,1] Arith.one (0, 0), rfl, ⟨by decide, by decide, by decide⟩, ?_, rfl, ⟨by decide, by decide, by decide⟩, ?_, ?_,
    ⟨1, rfl⟩⟩
  · intro i _
    refine ⟨25, by norm_num, ?_⟩
    show XR.fin (1/4) = _
    rw [show ((25:ℤ):ℝ) / 100 = 1/4 by norm_num]
    exact (R.exact _ h1).symm
  · intro x hx
    cases hx
    refine ⟨1, rfl, ?_⟩
    have : (2:ℝ)^(0:ℤ) ≤ (2:ℝ)^(300:ℤ) := zpow_le_zpow_right₀ (by norm_num) (by norm_num)
    show |(1:ℝ)| ≤ _
    rw [abs_one]
    simpa using this
  · intro p hp
    simp only [List.mem_cons, List.not_mem_nil, or_false] at hp
    rcases hp with rfl | rfl <;> rfl

end Decimal
end FMV
