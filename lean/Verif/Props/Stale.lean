import Verif.Props.Eikonal
/-!
# C08: on maps with a dimension of size 1 the local solver uses the times of cells that are not neighbours

`EikonalSolver::solveEikonal` leaves the neighbours it looked at in a member buffer of the grid, and reads the buffer again for a dimension without neighbours.
-/
namespace FMV
open XR

/-- **C08 refuted: the result depends on the cell treated before.**  On every 3 x 1 map whose end cell 2 has the time `t2` and whose middle cell has a time
`t1 ≥ t2 + h/v`: computing the middle cell and then the end cell 0 (as a sweep does) gives cell 0 the time `t2 + h/v`, as if cell 2 were its neighbour (its only
neighbour is cell 1, so the correct time is `t1 + h/v`). -/
theorem C08_refuted_history (g : Grid XR) (hs : g.shape = Shape.mk' [3,1]) (h v t1 t2 : ℝ) (hh : 0 < h) (hv : 0 < v) (hl : g.leaf = fin h) (hv0 : g.vel 0 = fin v)
    (h0 : g.value 0 = pinf) (h1 : g.value 1 = fin t1) (h2 : g.value 2 = fin t2) (ht : t2 + h / v ≤ t1) :
    g.shape.nbrs 0 = [1] ∧ (eikS (g.setScratch (eikS g 1).2) 0).1 = fin (t2 + h / v) := by
  obtain ⟨sh, leaf, clean, cells, occ, scr⟩ := g
  dsimp only at hs hl
  subst hs
  dsimp only [Grid.value, Grid.vel] at hv0 h0 h1 h2
  have e0 : (Shape.mk' [3,1]).nbrsDim 0 0 = [1] := by decide
  have e1 : (Shape.mk' [3,1]).nbrsDim 0 1 = [] := by decide
  have e2 : (Shape.mk' [3,1]).nbrsDim 1 0 = [0,2] := by decide
  have e3 : (Shape.mk' [3,1]).nbrsDim 1 1 = [] := by decide
  have en : (Shape.mk' [3,1]).ndims = 2 := rfl
  have hr : List.range 2 = [0, 1] := by decide
  have hscr : (eikS (⟨Shape.mk' [3,1], leaf, clean, cells, occ, scr⟩ : Grid XR) 1).2 = (0, 2) := by
    unfold eikS solveEikonalS
    simp only [en, hr, collectS, Grid.getMinValueInDimS, e2, e3]
    simp [e3]
  have hlt : 0 < h / v := div_pos hh hv
  have hne : v ≠ 0 := hv.ne'
  have hlt' : t2 < t1 := by linarith
  refine ⟨by show (Shape.mk' [3,1]).nbrs 0 = [1]; decide, ?_⟩
  rw [hscr]
  have hnlt : ¬ t1 < t2 := by linarith
  have hlist : (eikS ((⟨Shape.mk' [3,1], leaf, clean, cells, occ, scr⟩ : Grid XR).setScratch (0,2)) 0).1 = solveList (fin h) (fin v) [fin t1, fin t2] := by
    have i1 : Arith.isInf (fin t1) = false := rfl
    have i2 : Arith.isInf (fin t2) = false := rfl
    have l1 : Arith.lt (fin t1) pinf = true := rfl
    have l2 : Arith.lt (fin t2) pinf = true := rfl
    have l3 : Arith.lt (fin t1) (fin t2) = false := decide_eq_false hnlt
    unfold eikS solveEikonalS Grid.setScratch
    simp only [en, hr, collectS, Grid.getMinValueInDimS, e0, e1, Grid.value, Grid.vel, h0, h1, h2, hl, hv0]
    simp [e0, e1, h0, h1, h2, hv0, i1, i2, l1, l2, l3]
  have l4 : Arith.lt (fin t2) (fin t1) = true := decide_eq_true hlt'
  have hsort : sortF [fin t1, fin t2] = [fin t2, fin t1] := by simp [sortF, insertF, l4]
  have hnd : solveND (fin h) (fin v) [fin t2, fin t1] 1 = fin (t2 + h / v) := by
    have : (Arith.div (fin h) (fin v) : XR) = fin (h / v) := by
      show XR.div (fin h) (fin v) = _
      simp [XR.div, hne]
    simp only [solveND, if_true, List.headD]
    rw [this]; rfl
  rw [hlist]
  unfold solveList
  dsimp only
  rw [hsort]
  show eikLoop (fin h) (fin v) [fin t2, fin t1] 1 1 = _
  unfold eikLoop
  simp only [hnd]
  rw [if_pos]
  show decide (t2 + h / v - t1 < eps) = true
  have : (0:ℝ) < eps := by unfold eps; norm_num
  exact decide_eq_true (by linarith)

/-- non-vacuity: unit cells and speed, times 0 and 3 -/
example : ∃ g : Grid XR, g.shape = Shape.mk' [3,1] ∧ g.leaf = fin 1 ∧ g.vel 0 = fin 1 ∧ g.value 0 = pinf ∧ g.value 1 = fin 3 ∧ g.value 2 = fin 0 ∧ (0:ℝ) + 1 / 1 ≤ 3 :=
  ⟨{ shape := Shape.mk' [3,1], leaf := fin 1, clean := false
     cells := fun i => { (Cell.default : Cell XR) with value := if i = 0 then pinf else if i = 1 then fin 3 else fin 0, index := i }
     occupied := [], scratch := (0,0) }, rfl, rfl, rfl, rfl, rfl, rfl, by norm_num⟩

end FMV
