import Verif.Model.FMM
/-
Model of calls of `nDGridMap::getMinValueInDim` (ndgridmap/ndgridmap.hpp:119-128, 175-193) made by several threads, and of threads in general.

Statements are atomic and memory is sequentially consistent; the C++ memory model promises less (a data race is undefined behaviour), so what goes wrong here goes wrong there.
No function of the library uses a mutable static or global variable (the two `thread_local` variables of benchmark.hpp:169,236 belong to their thread), so that threads share
what they are given: grids and solvers.
-/
namespace FMV.Threads
open Arith
variable {F : Type} [Arith F]

/-- the next statement of a call: `n_neighs = 0` (line 121), the first neighbour (183-185), the second one (187-189), the result (124-127) -/
inductive Pc (F : Type) where
  | reset | prev | next | result
  | done (r : F)

/-- a call of `getMinValueInDim(idx, dim)` -/
structure Call (F : Type) where
  idx : Nat
  dim : Nat
  pc : Pc F

/-- the members of the grid that a call writes (ndgridmap.hpp:368-376): `n_neighs`, `n_[0]`, `n_[1]`; and whether a write outside `n_` was made -/
structure Mem where
  cnt : Nat
  n0 : Nat
  n1 : Nat
  outside : Bool

/-- `neighs[n_neighs++] = c` (ndgridmap.hpp:186,189) -/
def Mem.put (m : Mem) (c : Nat) : Mem :=
  match m.cnt with
  | 0 => { m with n0 := c, cnt := 1 }
  | 1 => { m with n1 := c, cnt := 2 }
  | k + 2 => { m with outside := true, cnt := k + 3 }

/-- the first candidate, if it is in the same slice (ndgridmap.hpp:177-186) -/
def prevNbr (s : Shape) (idx dim : Nat) : Option Nat :=
  let c1 := u32sub idx (if dim = 0 then 1 else s.d.getD (dim - 1) 0)
  if c1 / s.d.getD dim 0 = idx / s.d.getD dim 0 then some c1 else none

/-- the second candidate, if it is in the same slice (ndgridmap.hpp:177-189) -/
def nextNbr (s : Shape) (idx dim : Nat) : Option Nat :=
  let c2 := u32 (idx + (if dim = 0 then 1 else s.d.getD (dim - 1) 0))
  if c2 / s.d.getD dim 0 = idx / s.d.getD dim 0 then some c2 else none

/-- one statement of a call on the grid `g`, whose cells nobody changes -/
def exec (g : Grid F) (c : Call F) (m : Mem) : Call F × Mem :=
  match c.pc with
  | .reset => ({ c with pc := .prev }, { m with cnt := 0 })
  | .prev => ({ c with pc := .next }, match prevNbr g.shape c.idx c.dim with | some a => m.put a | none => m)
  | .next => ({ c with pc := .result }, match nextNbr g.shape c.idx c.dim with | some a => m.put a | none => m)
  | .result => ({ c with pc := .done (if m.cnt = 1 then g.value m.n0 else if lt (g.value m.n0) (g.value m.n1) then g.value m.n0 else g.value m.n1) }, m)
  | .done _ => (c, m)

/-- `Sched g ts s s'`: the threads named in `ts`, in this order, each execute one statement; a thread makes one call -/
inductive Sched (g : Grid F) : List Nat → (Nat → Call F) × Mem → (Nat → Call F) × Mem → Prop
  | nil (s) : Sched g [] s s
  | cons {i ts s s'} : Sched g ts (fun j => if j = i then (exec g (s.1 i) s.2).1 else s.1 j, (exec g (s.1 i) s.2).2) s' → Sched g (i :: ts) s s'

/-- Threads in general: thread `i` has the state `s i`, with its own grid and solver in it, and makes the steps `step i`; the schedule is arbitrary. -/
inductive Together {ι : Type} {σ : ι → Type} (step : (i : ι) → σ i → σ i → Prop) (s : (i : ι) → σ i) : ((i : ι) → σ i) → Prop
  | start : Together step s s
  | step {t u} (i : ι) : Together step s t → step i (t i) (u i) → (∀ j, j ≠ i → u j = t j) → Together step s u

end FMV.Threads
