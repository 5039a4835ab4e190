import Verif.Model.Own
/-
Model of copying: the implicit copy constructor of the solvers.  None of the solver classes declares or deletes a copy constructor (fm/solver.hpp:40-47,
fm/fmm.hpp:64-75, fm/ufmm.hpp:37-49, fm2/fm2.hpp:44-67), so the compiler provides one that copies member by member; a raw pointer member is copied as a pointer.
(A `Benchmark` cannot be copied: its member `log_` is a `std::stringstream`, benchmark/benchmark.hpp:259.)  Simplification: as in `Model/Own.lean`, memory inside the standard containers and the Boost heaps is not tracked (their own copy constructors copy it).
-/
namespace FMV.Own

/-- `new S(*s)`: a new object with the members of `s`: `grid_` (fm/solver.hpp:213), `narrow_band_` (fm/ufmm.hpp:139), `solver_` (fm2/fm2.hpp:202) are the same pointers. -/
def copySol (s : Sol) (m : Mem) : Option (Sol × Mem) :=
  (m.use s.self).bind fun m => some ({ s with self := m.alloc.1 }, m.alloc.2)

/-- the calls of a program that also copies objects -/
inductive CCall where
  | call (c : Call)
  /-- `S * n' = new S(*n)` -/
  | copy (n' n : Nat)

/-- One call. -/
def execC (w : World) : CCall → Option World
  | .call c => exec w c
  | .copy n' n => (w.sol n).bind fun s => (copySol s w.mem).bind fun r => some { w with sol := put w.sol n' (some r.1), mem := r.2 }

/-- A history of calls. -/
def execAllC : List CCall → World → Option World
  | [], w => some w
  | c :: cs, w => (execC w c).bind (execAllC cs)

end FMV.Own
