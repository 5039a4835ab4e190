import Verif.Model.Examples
import Verif.Props.Own
import Mathlib.Data.Finset.Card
import Mathlib.Data.Finset.Range
/-!
# C94: the memory of the example programs
-/
namespace FMV
open FMV.Own FMV.Spec.Own
namespace Own

/-- calls that respect the rules, one after the other -/
inductive Chain : Ledger → List Call → Ledger → Prop
  | nil {l} : Chain l [] l
  | cons {l c l' cs l''} : Ok l c l' → Chain l' cs l'' → Chain l (c :: cs) l''

theorem Chain.append {l cs l' ds l''} (h : Chain l cs l') (k : Chain l' ds l'') : Chain l (cs ++ ds) l'' := by
  induction h with
  | nil => exact k
  | cons o _ ih => exact .cons o (ih k)

theorem Chain.careful {l cs l' ds} (h : Chain l cs l') (k : Careful ds l) : Careful (ds ++ cs) l' := by
  induction h generalizing ds with
  | nil => simpa using k
  | cons o _ ih => have := ih (k.snoc o); simpa using this

/-- the empty ledger -/
def empty0 : Ledger := ⟨fun _ => none, fun _ => .unused, fun _ => none⟩

theorem Chain.careful0 {cs l} (h : Chain empty0 cs l) : Careful cs l := by simpa using h.careful .nil

/-- the grids while grid 0 exists -/
def oneGrid : Nat → GridL := put (fun _ => .unused) 0 (.here none)

/-- the program holds the solvers with the names below `n`, and grid 0 -/
structure Holds (n : Nat) (l : Ledger) : Prop where
  mine : ∀ i < n, ∃ s, l.sol i = some s ∧ s.held = none
  free : ∀ i, n ≤ i → l.sol i = none
  grid : l.grid = oneGrid
  ben : l.ben = fun _ => none

theorem hasGrid0 {l : Ledger} (h : l.grid = oneGrid) : l.hasGrid 0 := ⟨none, by rw [h]; rfl⟩

theorem create_chain (ks : List Kind) : ∀ {n l}, Holds n l → ∃ l', Chain l (createFrom n ks) l' ∧ Holds (n + ks.length) l' := by
  induction ks with
  | nil => intro n l h; exact ⟨l, .nil, h⟩
  | cons k ks ih =>
    intro n l h
    have h1 : Ok l (.newSolver n k) _ := .newSolver (h.free n le_rfl)
    have h2 : Holds (n + 1) { l with sol := put l.sol n (some ⟨k, none, none⟩) } := by
      refine ⟨fun i hi => ?_, fun i hi => ?_, h.grid, h.ben⟩
      · by_cases e : i = n
        · subst e; exact ⟨_, put_same _ _ _, rfl⟩
        · obtain ⟨s, a, b⟩ := h.mine i (by omega)
          exact ⟨s, by show put l.sol n _ i = _; rw [put_ne _ _ e]; exact a, b⟩
      · show put l.sol n _ i = none
        rw [put_ne _ _ (by omega)]; exact h.free i (by omega)
    obtain ⟨l', h3, h4⟩ := ih h2
    exact ⟨l', .cons h1 h3, by rw [List.length_cons, show n + (ks.length + 1) = n + 1 + ks.length from by omega]; exact h4⟩

/-- one solver is configured; it can run then -/
theorem config_chain {n l} (h : Holds n l) {i : Nat} (hi : i < n) (runs : Nat) :
    ∃ l', Chain l (.setEnvironment i 0 :: .setPoints i :: List.replicate runs (.run i)) l' ∧ Holds n l' := by
  obtain ⟨s, a, b⟩ := h.mine i hi
  have h2 : Holds n { l with sol := put l.sol i (some { s with env := some 0 }) } := by
    refine ⟨fun j hj => ?_, fun j hj => ?_, h.grid, h.ben⟩
    · by_cases e : j = i
      · subst e; exact ⟨_, put_same _ _ _, b⟩
      · obtain ⟨s', a', b'⟩ := h.mine j hj
        exact ⟨s', by show put l.sol i _ j = _; rw [put_ne _ _ e]; exact a', b'⟩
    · show put l.sol i _ j = none
      rw [put_ne _ _ (by omega)]; exact h.free j hj
  refine ⟨_, .cons (.setEnvironment a (hasGrid0 h.grid)) (.cons (.setPoints (put_same _ _ _) fun _ => ⟨0, rfl, hasGrid0 h2.grid⟩) ?_), h2⟩
  induction runs with
  | zero => exact .nil
  | succ k ih => exact .cons (.run (put_same _ _ _) rfl (hasGrid0 h2.grid)) ih

theorem runs_chain {n l} (h : Holds n l) (runs : Nat) : ∀ k ≤ n, ∃ l',
    Chain l ((List.range k).flatMap (fun i => .setEnvironment i 0 :: .setPoints i :: List.replicate runs (.run i))) l' ∧ Holds n l' := by
  intro k
  induction k with
  | zero => intro _; exact ⟨l, .nil, h⟩
  | succ k ih =>
    intro hk
    obtain ⟨l1, c1, h1⟩ := ih (by omega)
    obtain ⟨l2, c2, h2⟩ := config_chain h1 (i := k) (by omega) runs
    refine ⟨l2, ?_, h2⟩
    rw [List.range_succ, List.flatMap_append, List.flatMap_singleton]
    exact c1.append c2

theorem delete_chain {n l} (h : Holds n l) : ∀ k ≤ n, ∃ l', Chain l ((List.range k).map .delete) l' ∧ (∀ i < k, l'.sol i = none) ∧ (∀ i, k ≤ i → l'.sol i = l.sol i) ∧
    l'.grid = oneGrid := by
  intro k
  induction k with
  | zero => intro _; exact ⟨l, .nil, by omega, fun _ _ => rfl, h.grid⟩
  | succ k ih =>
    intro hk
    obtain ⟨l1, c1, a1, a2, a3⟩ := ih (by omega)
    obtain ⟨s, b1, b2⟩ := h.mine k (by omega)
    rw [← a2 k le_rfl] at b1
    refine ⟨{ l1 with sol := put l1.sol k none }, ?_, fun i hi => ?_, fun i hi => ?_, a3⟩
    · rw [List.range_succ, List.map_append, List.map_singleton]
      exact c1.append (.cons (.delete b1 b2) .nil)
    · show put l1.sol k none i = none
      by_cases e : i = k
      · subst e; exact put_same _ _ _
      · rw [put_ne _ _ e]; exact a1 i (by omega)
    · show put l1.sol k none i = _
      rw [put_ne _ _ (by omega)]; exact a2 i (by omega)

theorem start_chain : Ok empty0 (.newGrid 0) { empty0 with grid := oneGrid } := .newGrid rfl

theorem start_holds : Holds 0 { empty0 with grid := oneGrid } := ⟨fun i hi => by omega, fun _ _ => rfl, rfl, rfl⟩

theorem no_grid {l : Ledger} (h : l.grid = oneGrid) (g : Nat) : ¬ Ledger.hasGrid { l with grid := put l.grid 0 .gone } g := by
  rintro ⟨x, hx⟩
  change put l.grid 0 .gone g = _ at hx
  rw [h] at hx
  by_cases e : g = 0
  · subst e; rw [put_same] at hx; cases hx
  · rw [put_ne _ _ e, oneGrid, put_ne _ _ e] at hx; cases hx

/-- **C94**: `test_fm`, for every list of solvers, touches no memory that it does not have, and at the end everything is freed. -/
theorem _root_.FMV.C94_test_fm (ks : List Kind) : ∃ w, execAll (testFm ks) start = some w ∧ w.mem.live = ∅ := by
  obtain ⟨l1, c1, h1⟩ := create_chain ks start_holds
  rw [Nat.zero_add] at h1
  obtain ⟨l2, c2, h2⟩ := runs_chain h1 2 ks.length le_rfl
  obtain ⟨l3, c3, a1, a2, a3⟩ := delete_chain h2 ks.length le_rfl
  have c : Chain empty0 (testFm ks) { l3 with grid := put l3.grid 0 .gone } :=
    .cons start_chain (c1.append (c2.append (c3.append (.cons (.deleteGrid (by rw [a3]; rfl)) .nil))))
  refine C73_no_leak _ _ c.careful0 ⟨fun i => ?_, no_grid a3⟩
  by_cases hi : i < ks.length
  · exact a1 i hi
  · show l3.sol i = none
    rw [a2 i (by omega)]; exact h2.free i (by omega)

/-- **C94**: the same for `test_fm2`. -/
theorem _root_.FMV.C94_test_fm2 (ks : List Kind) : ∃ w, execAll (testFm2 ks) start = some w ∧ w.mem.live = ∅ := C94_test_fm ks

/-- the benchmark holds the solvers below `n` -/
structure BHolds (n : Nat) (l : Ledger) : Prop where
  held : ∀ i < n, ∃ s, l.sol i = some s ∧ s.held = some 0
  free : ∀ i, n ≤ i → l.sol i = none
  grid : l.grid = oneGrid
  ben : ∃ x, l.ben 0 = some x ∧ x.env = some 0

theorem add_chain (ks : List Kind) : ∀ {n l}, BHolds n l → ∃ l', Chain l (addFrom n ks) l' ∧ BHolds (n + ks.length) l' := by
  induction ks with
  | nil => intro n l h; exact ⟨l, .nil, h⟩
  | cons k ks ih =>
    intro n l h
    obtain ⟨x, b1, b2⟩ := h.ben
    have h1 : Ok l (.newSolver n k) _ := .newSolver (h.free n le_rfl)
    have h2 : Ok { l with sol := put l.sol n (some ⟨k, none, none⟩) } (.addSolver 0 n) _ := .addSolver b1 (put_same _ _ _) rfl
    have h3 : BHolds (n + 1) { l with sol := put (put l.sol n (some ⟨k, none, none⟩)) n (some ⟨k, none, some 0⟩),
                                      ben := put l.ben 0 (some { x with solvers := x.solvers ++ [n] }) } := by
      refine ⟨fun i hi => ?_, fun i hi => ?_, h.grid, ⟨{ x with solvers := x.solvers ++ [n] }, by simp [put], b2⟩⟩
      · by_cases e : i = n
        · subst e; exact ⟨_, put_same _ _ _, rfl⟩
        · obtain ⟨s, a, b⟩ := h.held i (by omega)
          exact ⟨s, by show put (put l.sol n _) n _ i = _; rw [put_ne _ _ e, put_ne _ _ e]; exact a, b⟩
      · show put (put l.sol n _) n _ i = none
        rw [put_ne _ _ (by omega), put_ne _ _ (by omega)]; exact h.free i (by omega)
    obtain ⟨l', h4, h5⟩ := ih h3
    exact ⟨l', .cons h1 (.cons h2 h4), by rw [List.length_cons, show n + (ks.length + 1) = n + 1 + ks.length from by omega]; exact h5⟩

/-- **C94**: `test_fm_benchmark`, for every list of solvers: the benchmark deletes the solvers, once. -/
theorem _root_.FMV.C94_test_fm_benchmark (ks : List Kind) : ∃ w, execAll (testFmBenchmark ks) start = some w ∧ w.mem.live = ∅ := by
  have o2 : Ok { empty0 with grid := oneGrid } (.newBench 0) _ := .newBench rfl
  have o3 : Ok { empty0 with grid := oneGrid, ben := put empty0.ben 0 (some ⟨[], none, false⟩) } (.benchEnv 0 0) _ := .benchEnv (x := ⟨[], none, false⟩) (by simp [put]) rfl (hasGrid0 rfl)
  have hb : BHolds 0 { empty0 with grid := oneGrid, ben := put (put empty0.ben 0 (some ⟨[], none, false⟩)) 0 (some ⟨[], some 0, false⟩) } :=
    ⟨fun i hi => by omega, fun _ _ => rfl, rfl, ⟨[], some 0, false⟩, by simp [put], rfl⟩
  obtain ⟨l1, c1, h1⟩ := add_chain ks hb
  rw [Nat.zero_add] at h1
  obtain ⟨x, b1, b2⟩ := h1.ben
  have o4 : Ok l1 (.benchRun 0) _ := .benchRun b1 b2 (hasGrid0 h1.grid)
  set l2 : Ledger := { l1 with sol := fun n => (l1.sol n).map fun s => if s.held = some 0 then { s with env := some 0 } else s } with hl2
  have o5 : Ok l2 (.benchDestroy 0) { l2.release 0 with ben := put l2.ben 0 none } := .benchDestroy b1
  set l3 : Ledger := { l2.release 0 with ben := put l2.ben 0 none } with hl3
  have hg3 : l3.grid = oneGrid := by
    funext g
    show (match l1.grid g with | .here (some c) => if c = 0 then GridL.gone else GridL.here (some c) | x => x) = _
    rw [h1.grid]
    by_cases e : g = 0
    · subst e; rfl
    · rw [oneGrid, put_ne _ _ e]
  have o6 : Ok l3 (.deleteGrid 0) { l3 with grid := put l3.grid 0 .gone } := .deleteGrid (by rw [hg3]; rfl)
  have c : Chain empty0 (testFmBenchmark ks) { l3 with grid := put l3.grid 0 .gone } :=
    .cons start_chain (.cons o2 (.cons o3 (c1.append (.cons o4 (.cons o5 (.cons o6 .nil))))))
  refine C73_no_leak _ _ c.careful0 ⟨fun i => ?_, no_grid hg3⟩
  show ((l2.sol i).bind fun s => if s.held = some 0 then none else some s) = none
  show (((l1.sol i).map fun s => if s.held = some 0 then { s with env := some 0 } else s).bind fun s => if s.held = some 0 then none else some s) = none
  by_cases hi : i < ks.length
  · obtain ⟨s, a, b⟩ := h1.held i hi
    rw [a]; simp [b]
  · rw [h1.free i (by omega)]; rfl

/-- **C94**: `full_example` uses local variables only: nothing is touched after its end, nothing is left. -/
theorem _root_.FMV.C94_full_example : ∃ w, execAll fullExample start = some w ∧ w.mem.live = ∅ := by
  exact ⟨_, rfl, by decide⟩

/-- **C94** is false for `test_fmm3d`: it touches no memory that it does not have, but when it ends all its solvers still exist (they are different ones). -/
theorem _root_.FMV.C94_refuted_3d (ks : List Kind) : ∃ w, execAll (testFmm3d ks) start = some w ∧
    (∀ i < ks.length, ∃ x, w.sol i = some x ∧ x.self ∈ w.mem.live) ∧ ks.length ≤ w.mem.live.card := by
  obtain ⟨l1, c1, h1⟩ := create_chain ks start_holds
  rw [Nat.zero_add] at h1
  obtain ⟨l2, c2, h2⟩ := runs_chain h1 1 ks.length le_rfl
  have c : Chain empty0 (testFmm3d ks) { l2 with grid := put l2.grid 0 .gone } :=
    .cons start_chain (c1.append (c2.append (.cons (.deleteGrid (by rw [h2.grid]; rfl)) .nil)))
  obtain ⟨w, e, ⟨own, I⟩, -⟩ := careful_inv c.careful0
  have key : ∀ i < ks.length, ∃ x, w.sol i = some x ∧ x.self ∈ w.mem.live ∧ own x.self = .sol i := by
    intro i hi
    obtain ⟨s, a, -⟩ := h2.mine i hi
    obtain ⟨x, k1, -, -, k2, -⟩ := I.sol i s a
    have hself : x.self ∈ blocks x := by unfold blocks; cases x.kind <;> simp
    exact ⟨x, k1, (k2 _ hself).1, (k2 _ hself).2⟩
  refine ⟨w, e, fun i hi => ?_, ?_⟩
  · obtain ⟨x, k1, k2, -⟩ := key i hi; exact ⟨x, k1, k2⟩
  · haveI : Nonempty Sol := ⟨⟨.plain, 0, 0, 0, 0, none⟩⟩
    choose! f hf using key
    have : (Finset.range ks.length).card ≤ w.mem.live.card := by
      refine Finset.card_le_card_of_injOn (fun i => (f i).self) (fun i hi => (hf i (Finset.mem_range.1 hi)).2.1) ?_
      intro i hi j hj hij
      have h1 := (hf i (by simpa using hi)).2.2
      have h2 := (hf j (by simpa using hj)).2.2
      simp only at hij
      rw [hij, h2] at h1
      exact (Thing.sol.inj h1).symm
    simpa using this

/-- the solvers of `test_fm` (fifteen, one of them owns memory), of `test_fm2` and of `test_fmm3d` -/
example : (∃ w, execAll (testFm (List.replicate 11 .plain ++ [.ufmm] ++ List.replicate 3 .plain)) start = some w ∧ w.mem.live = ∅) ∧
    (∃ w, execAll (testFm2 (List.replicate 3 .fm2 ++ List.replicate 6 .fm2star)) start = some w ∧ w.mem.live = ∅) ∧
    ∃ w, execAll (testFmm3d [.plain]) start = some w ∧ 1 ≤ w.mem.live.card :=
  ⟨C94_test_fm _, C94_test_fm2 _, let ⟨w, a, _, b⟩ := C94_refuted_3d [.plain]; ⟨w, a, b⟩⟩

end Own
end FMV
