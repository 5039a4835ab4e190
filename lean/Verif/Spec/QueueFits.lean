import Verif.Spec.Distance
/-
Specification: an untidy queue that suits a map, in double precision.
-/
namespace FMV.Spec

/-- A queue of `n` buckets covering a window `inc`, used in `D` dimensions where crossing a cell takes between `cm` and `cM` and no time exceeds `A`:
the window is longer than two crossings and two buckets, and a bucket is wider than the rounding errors of an update and of the beginning of the
queue (`2^-46` bounds a few roundings, `relErr` the error of an update). -/
structure QueueFits (D n : Nat) (cm cM A inc : ℝ) : Prop where
  pos : 0 < n
  le : n ≤ 2^30
  inc0 : 0 < inc
  inc2 : inc ≤ (2:ℝ)^(300:ℤ)
  win : 2 * cM + 2 * (inc / n) ≤ inc
  wide : relErr D cm A * cm + n * (A + inc) / 2^46 < inc / n

/-- Relative error guaranteed for UFMM in double precision: that of an update, plus the width of a bucket for every cell crossed. -/
noncomputable def queueErr (D n : Nat) (cm A inc : ℝ) : ℝ := relErr D cm A + 2 * D * (inc / n + n * (A + inc) / 2^46) / cm

end FMV.Spec
