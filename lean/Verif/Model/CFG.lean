import Verif.Model.Console
import Verif.Model.Solver
/-
Model of the benchmark configuration, include/fast_methods/benchmark/benchmarkcfg.hpp.

Strings are lists of characters (`Console.Str`).  Simplifications: `boost::program_options` (the parsing of the CFG file into key/value pairs) and
`boost::lexical_cast` are not modelled; the former's result is the input, the latter is given by the functions of `Lex` (`none`: `bad_lexical_cast` is thrown).
-/
namespace FMV.CFG
open Console Arith

/-- The part of a `std::stringstream`'s state that matters: the characters not yet read, and whether the stream is still `good()`. -/
structure SS where
  rest : Str
  good : Bool

/-- `std::getline(ss, item, ',')` (used in benchmarkcfg.hpp:329, 343): the stream and `item` afterwards.  A stream that is not good leaves `item` unchanged;
otherwise the characters up to the next comma are extracted (and the comma is dropped); reaching the end makes the stream not good. -/
def getline (s : SS) (item : Str) : SS × Str :=
  if s.good then
    match s.rest.dropWhile (· ≠ ',') with
    | [] => (⟨[], false⟩, s.rest.takeWhile (· ≠ ','))
    | _ :: tl => (⟨tl, true⟩, s.rest.takeWhile (· ≠ ','))
  else (s, item)

/-- The variables of `split` (benchmarkcfg.hpp:338-341). -/
structure SplitSt where
  ss : SS
  item : Str
  elems : List Str
  pos : Nat

/-- The body of the loop of `split` (benchmarkcfg.hpp:343-345).  Simplification: `pos` does not wrap (strings are shorter than 2^63). -/
def splitBody (t : SplitSt) : SplitSt :=
  let r := getline t.ss t.item
  { ss := r.1, item := r.2, elems := t.elems ++ [r.2], pos := t.pos + r.2.length }

/-- The loop `while (pos < str_size)` of `split` (benchmarkcfg.hpp:342-346): it ends with the given vector. -/
inductive SplitLoop (size : Nat) : SplitSt → List Str → Prop
  | stop (t) : ¬ t.pos < size → SplitLoop size t t.elems
  | step (t r) : t.pos < size → SplitLoop size (splitBody t) r → SplitLoop size t r

/-- the initial values (benchmarkcfg.hpp:338-341) -/
def splitInit (s : Str) : SplitSt := ⟨⟨s, true⟩, [], [], 1⟩

/-- `s.length()-1` in `size_t` -/
def splitSize (s : Str) : Nat := if s.length = 0 then 2^64 - 1 else s.length - 1

/-- `split(s)` returns `r` (benchmarkcfg.hpp:336-348). -/
def Split (s : Str) (r : List Str) : Prop := SplitLoop (splitSize s) (splitInit s) r

/-- The loop of `splitAndCast<T,N>(s)` (benchmarkcfg.hpp:327-331) with `n` rounds to go; `none`: an item cannot be converted. -/
def castLoop {α : Type} (cast : Str → Option α) : Nat → SS → Str → Option (List α)
  | 0, _, _ => some []
  | n+1, ss, item =>
    let r := getline ss item
    match cast r.2 with
    | none => none
    | some a => (castLoop cast n r.1 r.2).map (a :: ·)

/-- `splitAndCast<T,N>(s)` (benchmarkcfg.hpp:320-333). -/
def splitAndCast {α : Type} (cast : Str → Option α) (N : Nat) (s : Str) : Option (List α) := castLoop cast N ⟨s, true⟩ []

/-- the heap a solver of the FMM family is instantiated with -/
inductive Heap where | dary | fib | pq
deriving DecidableEq

/-- What is constructed: the class with its arguments, the heap (FMM family only) and the name. -/
structure Made (F : Type) where
  kind : Kind F
  heap : Heap := .dary
  name : Str

/-- `boost::lexical_cast<double>`, `boost::lexical_cast<unsigned>`; and, for the untidy queue's undefined casts, their arbitrary result -/
structure Lex (F : Type) where
  dbl : Str → Option F
  uns : Str → Option Nat
  ub : F → Nat

/-- The outcome of one round of the loop of `configure`. -/
inductive Outcome (F : Type) where
  /-- `b.addSolver(solver)` with this new solver -/
  | add (m : Made F)
  /-- `continue` -/
  | skip
  /-- `b.addSolver(solver)` with an uninitialised pointer -/
  | uninit
  /-- an exception leaves `configure` -/
  | throws
  /-- `p[0]` is read from an empty vector: undefined behaviour -/
  | outOfRange

variable {F : Type} [Arith F]

/-- `knownSolvers` (benchmarkcfg.hpp:62-65) -/
def knownSolvers : List Str :=
  ["fmm", "fmmstar", "fmmfib", "fmmfibstar", "sfmm", "sfmmstar", "gmm", "fim", "ufmm", "fsm", "lsm", "ddqm"].map String.toList

/-- `std::numeric_limits<unsigned>::max()` -/
def maxU : Nat := 2^32 - 1

/-- The solvers made with their default constructor (benchmarkcfg.hpp:147-174; default arguments: fm/fmm.hpp:67, fm/fmmstar.hpp:67,73, fm/sfmm.hpp:51,
fm/sfmmstar.hpp:44, fm/gmm.hpp:36, fm/fim.hpp:39, fm/ufmm.hpp:41, fm/fsm.hpp:44, fm/lsm.hpp:43, fm/ddqm.hpp:44). -/
def makeDefault (L : Lex F) (name : Str) : Outcome F :=
  if name = "fmm".toList then .add ⟨.fmm false .none, .dary, "FMM".toList⟩
  else if name = "fmmstar".toList then .add ⟨.fmm false .time, .dary, "FMM*".toList⟩
  else if name = "fmmfib".toList then .add ⟨.fmm false .none, .fib, "FMMFib".toList⟩
  else if name = "fmmfibstar".toList then .add ⟨.fmm false .time, .fib, "FMMFib*".toList⟩
  else if name = "sfmm".toList then .add ⟨.fmm true .none, .pq, "SFMM".toList⟩
  else if name = "sfmmstar".toList then .add ⟨.fmm true .time, .pq, "SFMM*".toList⟩
  else if name = "gmm".toList then .add ⟨.gmm (neg one), .dary, "GMM".toList⟩
  else if name = "fim".toList then .add ⟨.fim zero, .dary, "FIM".toList⟩
  else if name = "ufmm".toList then .add ⟨.ufmm 1000 (ofNat 2) L.ub, .dary, "UFMM".toList⟩
  else if name = "fsm".toList then .add ⟨.fsm maxU, .dary, "FSM".toList⟩
  else if name = "lsm".toList then .add ⟨.lsm maxU, .dary, "LSM".toList⟩
  else if name = "ddqm".toList then .add ⟨.ddqm, .dary, "DDQM".toList⟩
  else .skip

/-- the branch of a `*` solver (benchmarkcfg.hpp:184-192, 197-205, 210-218); `d` and `hp` say which class -/
def makeStar (d : Bool) (hp : Heap) (p : List Str) : Outcome F :=
  match p with
  | [n] => .add ⟨.fmm d .time, hp, n⟩
  | [n, h] =>
    if h = "TIME".toList then .add ⟨.fmm d .time, hp, n⟩
    else if h = "DISTANCE".toList then .add ⟨.fmm d .distance, hp, n⟩
    else .uninit
  | _ => .uninit

/-- `new C(n, boost::lexical_cast<...>(x))` -/
def makeCast {α : Type} (cast : Str → Option α) (x : Str) (mk : α → Made F) : Outcome F :=
  match cast x with
  | none => .throws
  | some a => .add (mk a)

/-- The solvers made with constructor parameters (benchmarkcfg.hpp:176-264): `params` is the text of the line, `p` the result of `split`. -/
def makeWith (L : Lex F) (name params : Str) (p : List Str) : Outcome F :=
  if name = "fmm".toList then .add ⟨.fmm false .none, .dary, params⟩
  else if name = "fmmstar".toList then makeStar false .dary p
  else if name = "fmmfib".toList then .add ⟨.fmm false .none, .fib, params⟩
  else if name = "fmmfibstar".toList then makeStar false .fib p
  else if name = "sfmm".toList then .add ⟨.fmm true .none, .pq, params⟩
  else if name = "sfmmstar".toList then makeStar true .pq p
  else if name = "gmm".toList then
    match p with
    | [n] => .add ⟨.gmm (neg one), .dary, n⟩
    | [n, x] => makeCast L.dbl x (fun d => ⟨.gmm d, .dary, n⟩)
    | _ => .uninit
  else if name = "fim".toList then
    match p with
    | [n] => .add ⟨.fim zero, .dary, n⟩
    | [n, x] => makeCast L.dbl x (fun d => ⟨.fim d, .dary, n⟩)
    | _ => .uninit
  else if name = "ufmm".toList then
    match p with
    | [n] => .add ⟨.ufmm 1000 (ofNat 2) L.ub, .dary, n⟩
    | [n, x] => makeCast L.uns x (fun u => ⟨.ufmm u (ofNat 2) L.ub, .dary, n⟩)
    | [n, x, y] =>
      match L.uns x, L.dbl y with
      | some u, some d => .add ⟨.ufmm u d L.ub, .dary, n⟩
      | _, _ => .throws
    | _ => .uninit
  else if name = "fsm".toList then
    match p with
    | [n] => .add ⟨.fsm maxU, .dary, n⟩
    | [n, x] => makeCast L.uns x (fun u => ⟨.fsm u, .dary, n⟩)
    | _ => .uninit
  else if name = "lsm".toList then
    match p with
    | [n] => .add ⟨.lsm maxU, .dary, n⟩
    | [n, x] => makeCast L.uns x (fun u => ⟨.lsm u, .dary, n⟩)
    | _ => .uninit
  else if name = "ddqm".toList then
    match p with
    | [] => .outOfRange
    | n :: _ => .add ⟨.lsm maxU, .dary, n⟩
  else .skip

/-- One round of the loop over the solver lines (benchmarkcfg.hpp:137-267) has the given outcome. -/
def Round (L : Lex F) (name params : Str) (o : Outcome F) : Prop :=
  if params = [] then o = makeDefault L name else ∃ p, Split params p ∧ o = makeWith L name params p

/-- The loop over the solver lines (benchmarkcfg.hpp:137-268) ends having added these solvers. -/
inductive Configures (L : Lex F) : List (Str × Str) → List (Made F) → Prop
  | nil : Configures L [] []
  | add {l ms} (name params m) : Round L name params (.add m) → Configures L l ms → Configures L ((name, params) :: l) (m :: ms)
  | skip {l ms} (name params) : Round L name params .skip → Configures L l ms → Configures L ((name, params) :: l) ms

/-- One unregistered option in `readOptions` (benchmarkcfg.hpp:108-121): the solver lines it adds.  `boost::to_lower_copy` is `Char.toLower` on every character. -/
def readLine (key val : Str) : List (Str × Str) :=
  let k := key.map Char.toLower
  if k.take 8 = "solvers.".toList then (knownSolvers.filter (fun n => k.drop 8 = n)).map (fun n => (n, val)) else []

/-- The loop over the unregistered options (benchmarkcfg.hpp:106-122): `solverNames_` with `ctorParams_` (which have the same length). -/
def readSolvers (unr : List (Str × Str)) : List (Str × Str) := unr.flatMap (fun kv => readLine kv.1 kv.2)

end FMV.CFG
