import Verif.Model.CFG
/-
Specification of the benchmark configuration file.
-/
namespace FMV.Spec
open Console CFG
variable {F : Type} [Arith F]

/-- `l` are the comma-separated items of the text `s` -/
structure Items (s : Str) (l : List Str) : Prop where
  ne : l ≠ []
  comma : ∀ it ∈ l, ',' ∉ it
  text : s = List.intercalate [','] l

/-- What the line `solver = name,arg1,...` asks for: the class and the arguments after the name (README, section on benchmarking; constructors in fm/*.hpp). -/
inductive ClassOf (L : Lex F) : Str → List Str → Kind F → Heap → Prop
  | fmm : ClassOf L "fmm".toList [] (.fmm false .none) .dary
  | fmmfib : ClassOf L "fmmfib".toList [] (.fmm false .none) .fib
  | sfmm : ClassOf L "sfmm".toList [] (.fmm true .none) .pq
  | fmmstar : ClassOf L "fmmstar".toList [] (.fmm false .time) .dary
  | fmmstarT : ClassOf L "fmmstar".toList ["TIME".toList] (.fmm false .time) .dary
  | fmmstarD : ClassOf L "fmmstar".toList ["DISTANCE".toList] (.fmm false .distance) .dary
  | fmmfibstar : ClassOf L "fmmfibstar".toList [] (.fmm false .time) .fib
  | fmmfibstarT : ClassOf L "fmmfibstar".toList ["TIME".toList] (.fmm false .time) .fib
  | fmmfibstarD : ClassOf L "fmmfibstar".toList ["DISTANCE".toList] (.fmm false .distance) .fib
  | sfmmstar : ClassOf L "sfmmstar".toList [] (.fmm true .time) .pq
  | sfmmstarT : ClassOf L "sfmmstar".toList ["TIME".toList] (.fmm true .time) .pq
  | sfmmstarD : ClassOf L "sfmmstar".toList ["DISTANCE".toList] (.fmm true .distance) .pq
  | gmm : ClassOf L "gmm".toList [] (.gmm (Arith.neg Arith.one)) .dary
  | gmmDt (x dt) : L.dbl x = some dt → ClassOf L "gmm".toList [x] (.gmm dt) .dary
  | fim : ClassOf L "fim".toList [] (.fim Arith.zero) .dary
  | fimE (x e) : L.dbl x = some e → ClassOf L "fim".toList [x] (.fim e) .dary
  | ufmm : ClassOf L "ufmm".toList [] (.ufmm 1000 (Arith.ofNat 2) L.ub) .dary
  | ufmmS (x n) : L.uns x = some n → ClassOf L "ufmm".toList [x] (.ufmm n (Arith.ofNat 2) L.ub) .dary
  | ufmmSI (x n y i) : L.uns x = some n → L.dbl y = some i → ClassOf L "ufmm".toList [x, y] (.ufmm n i L.ub) .dary
  | fsm : ClassOf L "fsm".toList [] (.fsm (2^32 - 1)) .dary
  | fsmS (x n) : L.uns x = some n → ClassOf L "fsm".toList [x] (.fsm n) .dary
  | lsm : ClassOf L "lsm".toList [] (.lsm (2^32 - 1)) .dary
  | lsmS (x n) : L.uns x = some n → ClassOf L "lsm".toList [x] (.lsm n) .dary
  | ddqm : ClassOf L "ddqm".toList [] .ddqm .dary

/-- the names solvers have by default -/
def defaultNames : List (Str × Str) :=
  [("fmm", "FMM"), ("fmmstar", "FMM*"), ("fmmfib", "FMMFib"), ("fmmfibstar", "FMMFib*"), ("sfmm", "SFMM"), ("sfmmstar", "SFMM*"), ("gmm", "GMM"),
   ("fim", "FIM"), ("ufmm", "UFMM"), ("fsm", "FSM"), ("lsm", "LSM"), ("ddqm", "DDQM")].map (fun p => (p.1.toList, p.2.toList))

/-- The solver that the line `solver = items` asks for (no items: an empty line). -/
def Wanted (L : Lex F) (solver : Str) (items : List Str) (m : Made F) : Prop :=
  ClassOf L solver (items.drop 1) m.kind m.heap ∧ (items = [] → (solver, m.name) ∈ defaultNames) ∧ (items ≠ [] → items.head? = some m.name)

end FMV.Spec
