import Verif.Model.Threads
import Verif.Props.Agree
/-!
# C111: threads
-/
set_option linter.unusedVariables false
namespace FMV.Threads
open Arith Spec Shape XR
variable {F : Type} [Arith F]

theorem nbrs_split (s : Shape) (idx dim : Nat) : s.nbrsDim idx dim = (prevNbr s idx dim).toList ++ (nextNbr s idx dim).toList := by
  unfold Shape.nbrsDim prevNbr nextNbr
  dsimp only
  generalize (if dim = 0 then 1 else s.d.getD (dim - 1) 0) = k
  split <;> split <;> rfl

/-- **C111** (a call alone): without other threads a call gives what it gives in the sequential model, and writes inside `n_`. -/
theorem _root_.FMV.C111_alone (g : Grid F) (i : Nat) (c : Nat → Call F) (hc : (c i).pc = .reset) (m : Mem) (hm : (m.n0, m.n1) = g.scratch) (ho : m.outside = false)
    (s : (Nat → Call F) × Mem) (h : Sched g [i, i, i, i] (c, m) s) : (s.1 i).pc = .done (g.getMinValueInDimS (c i).idx (c i).dim).1 ∧ s.2.outside = false := by
  cases h with
  | cons h => cases h with
  | cons h => cases h with
  | cons h => cases h with
  | cons h =>
    cases h
    obtain ⟨cnt, n0, n1, out⟩ := m
    dsimp only at hm ho
    subst ho
    have e0 : g.scratch.1 = n0 := by rw [← hm]
    have e1 : g.scratch.2 = n1 := by rw [← hm]
    rcases hi : c i with ⟨idx, dim, pc⟩
    rw [hi] at hc
    dsimp only at hc
    subst hc
    simp only [exec, hi, if_true]
    unfold Grid.getMinValueInDimS
    rw [nbrs_split]
    cases prevNbr g.shape idx dim <;> cases nextNbr g.shape idx dim <;> simp [Mem.put, Grid.value, e0, e1] <;> congr

/-- **C111**, what fails: two threads that only ask one grid for the smallest value around a cell.  Whatever the grid, if both cells have two neighbours in their dimensions (they may be
the same cell), there is a schedule after which a member array has been written outside its bounds, and one after which the first thread gets the answer for the cell of the second. -/
theorem _root_.FMV.C111_refuted_queries (g : Grid F) (i j : Nat) (hij : i ≠ j) (c : Nat → Call F) (hi : (c i).pc = .reset) (hj : (c j).pc = .reset) (m : Mem)
    (a1 a2 b1 b2 : Nat) (ha : g.shape.nbrsDim (c i).idx (c i).dim = [a1, a2]) (hb : g.shape.nbrsDim (c j).idx (c j).dim = [b1, b2]) :
    (∃ ts s, Sched g ts (c, m) s ∧ s.2.outside = true) ∧
    ∃ ts s, Sched g ts (c, m) s ∧ (s.1 i).pc = .done (if lt (g.value b1) (g.value b2) then g.value b1 else g.value b2) ∧
      (s.1 j).pc = .done (if lt (g.value b1) (g.value b2) then g.value b1 else g.value b2) := by
  have two : ∀ {idx dim x y}, g.shape.nbrsDim idx dim = [x, y] → prevNbr g.shape idx dim = some x ∧ nextNbr g.shape idx dim = some y := by
    intro idx dim x y h
    rw [nbrs_split] at h
    cases hp : prevNbr g.shape idx dim <;> cases hn : nextNbr g.shape idx dim <;> rw [hp, hn] at h <;> simp at h
    exact ⟨by rw [h.1], by rw [h.2]⟩
  obtain ⟨p1, p2⟩ := two ha
  obtain ⟨q1, q2⟩ := two hb
  rcases hci : c i with ⟨ia, da, pa⟩
  rcases hcj : c j with ⟨ib, db, pb⟩
  rw [hci] at hi p1 p2; rw [hcj] at hj q1 q2
  dsimp only at hi hj p1 p2 q1 q2
  subst hi; subst hj
  have hji : j ≠ i := Ne.symm hij
  constructor
  · refine ⟨[i, i, j, j, j, i], _, .cons (.cons (.cons (.cons (.cons (.cons (.nil _)))))), ?_⟩
    simp [exec, hci, hcj, hij, hji, p1, p2, q1, q2, Mem.put]
  · refine ⟨[i, i, i, j, j, j, i, j], _, .cons (.cons (.cons (.cons (.cons (.cons (.cons (.cons (.nil _)))))))), ?_, ?_⟩ <;>
    simp [exec, hci, hcj, hij, hji, p1, p2, q1, q2, Mem.put]

/-- **C111** (own grids): whatever the schedule, a thread with its own grid and solver is at every moment where it could be if it ran alone. -/
theorem _root_.FMV.C111_own_grid {ι : Type} {σ : ι → Type} {step : (i : ι) → σ i → σ i → Prop} {s t : (i : ι) → σ i} (h : Together step s t) (i : ι) :
    ∃ n, FMM.Steps (step i) n (s i) (t i) := by
  induction h with
  | start => exact ⟨0, .refl _⟩
  | @step t u k _ h1 h2 ih =>
    obtain ⟨n, ih⟩ := ih
    by_cases hk : i = k
    · subst hk; exact ⟨n + 1, .tail ih h1⟩
    · rw [h2 i hk]; exact ⟨n, ih⟩

/-- the states and the steps of two threads: FMM on one grid, FSM with `m` sweeps on another -/
def Two : Bool → Type
  | true => FMM.St XR
  | false => FSM.St XR

/-- their steps -/
def twoStep (cfg : FMM.Cfg XR) (m goal : Nat) : (b : Bool) → Two b → Two b → Prop
  | true => FMM.StepMin cfg
  | false => FSM.Step m (FSM.solveFSM goal eikS)

/-- **C111** (two solvers at a time): FMM and FSM compute the same map at the same time, each on its own grid; whatever the schedule, once both have finished their times are the solution
of the problem and agree, up to the comparison margin. -/
theorem _root_.FMV.C111_two_solvers {dims : List Nat} {g : Grid XR} {h : ℝ} {v : Nat → ℝ} {pts : List Nat} (X : XInput dims g h v pts) (hfr : Fresh g) (ha : StartsApart dims g pts)
    (cfg : FMM.Cfg XR) (hcfg : cfg.heur = .none) (m goal sw : Nat) (hg : dims.prod ≤ goal) (incs : List Int) (hi : FSM.IsDirs dims.length incs) (s t : (b : Bool) → Two b)
    (h1 : s true = (FMM.init cfg g [] pts : FMM.St XR)) (h2 : s false = (FSM.initFSM g pts sw incs : FSM.St XR)) (h3 : Together (twoStep cfg m goal) s t)
    (e1 : (t true : FMM.St XR).heap = []) (e2 : FSM.Done m (t false : FSM.St XR)) (e3 : (t false : FSM.St XR).sweeps < m) (i : Nat) (hid : i < dims.prod) :
    toT ((t true : FMM.St XR).g.value i) ≤ toT ((t false : FSM.St XR).g.value i) + ((dims.prod * (2 * eps) : ℝ) : WithTop ℝ) ∧
    toT ((t false : FSM.St XR).g.value i) ≤ toT ((t true : FMM.St XR).g.value i) + ((dims.prod * (2 * eps) : ℝ) : WithTop ℝ) := by
  obtain ⟨n1, r1⟩ := C111_own_grid h3 true
  obtain ⟨n2, r2⟩ := C111_own_grid h3 false
  rw [h1] at r1; rw [h2] at r2
  have := C28_solvers_agree_partial X hfr _ _ (.fmm hcfg ha r1 e1) (.fsm hg hi r2 e2 e3) i hid
  exact ⟨this.1, this.2.1⟩

/-- non-vacuity of the refutation: on a 3 x 3 grid the cell 4 has two neighbours in each dimension, the smallest values around it in them are different (0 and 7), and a thread asking for the
first can get the second -/
example : ∃ (g : Grid XR) (c : Nat → Call XR) (m : Mem) (ts : List Nat) (s : (Nat → Call XR) × Mem), (c 0).idx = 4 ∧ (c 0).dim = 0 ∧ (c 0).pc = .reset ∧ (c 1).pc = .reset ∧
    (g.getMinValueInDimS 4 0).1 = XR.fin 0 ∧ Sched g ts (c, m) s ∧ (s.1 0).pc = .done (XR.fin 7) := by
  let g : Grid XR := ((((Grid.create [3,3] (XR.fin 1) (0,0)).setValue 3 (XR.fin 0)).setValue 5 (XR.fin 0)).setValue 1 (XR.fin 7)).setValue 7 (XR.fin 7)
  have v3 : g.value 3 = XR.fin 0 := rfl
  have v5 : g.value 5 = XR.fin 0 := rfl
  have v1 : g.value 1 = XR.fin 7 := rfl
  have v7 : g.value 7 = XR.fin 7 := rfl
  obtain ⟨-, ts, s, h1, h2, -⟩ := C111_refuted_queries g 0 1 (by decide) (fun k => if k = 0 then ⟨4, 0, .reset⟩ else ⟨4, 1, .reset⟩) rfl rfl ⟨0, 0, 0, false⟩ 3 5 1 7 (by decide) (by decide)
  refine ⟨g, _, _, ts, s, rfl, rfl, rfl, rfl, ?_, h1, ?_⟩
  · unfold Grid.getMinValueInDimS
    rw [show g.shape.nbrsDim 4 0 = [3, 5] by decide]
    show (if Arith.lt (g.value 3) (g.value 5) = true then g.value 3 else g.value 5) = _
    rw [v3, v5]; simp
  · rw [h2, v1, v7]; simp

end FMV.Threads
