import Verif.Props.Geometry
import Mathlib.Algebra.BigOperators.Group.Finset.Basic
/-
C06: the average speed of a map.
-/
namespace FMV
open Arith Shape Spec

/-- the loop of `getAvgSpeed` in exact arithmetic: sum of the free speeds and number of occupied cells -/
theorem avg_foldl (v : Nat → ℝ) (g : Grid XR) : ∀ (l : List Nat), (∀ i ∈ l, g.occ i = false → g.vel i = XR.fin (v i)) → ∀ (a : ℝ) (n : Nat),
    (l.map g.cells).foldl (fun (acc : XR × Nat) c => if !c.isOccupied then (add acc.1 c.occupancy, acc.2) else (acc.1, acc.2 + 1)) (XR.fin a, n) =
      (XR.fin (a + ((l.filter (fun i => !g.occ i)).map v).sum), n + (l.filter (fun i => g.occ i)).length) := by
  intro l
  induction l with
  | nil => intro _ a n; simp
  | cons i l ih =>
    intro hv a n
    have ih := ih (fun k hk => hv k (by simp [hk]))
    rw [List.map_cons, List.foldl_cons]
    cases ho : g.occ i with
    | false =>
      have ho' : (g.cells i).isOccupied = false := ho
      have e : (add (XR.fin a) (g.cells i).occupancy : XR) = XR.fin (a + v i) := by
        have := hv i (by simp) ho
        unfold Grid.vel at this; rw [this]; rfl
      simp only [ho', Bool.not_false, if_true, e]
      rw [ih]
      simp [ho, add_assoc]
    | true =>
      have ho' : (g.cells i).isOccupied = true := ho
      simp only [ho', Bool.not_true, Bool.false_eq_true, if_false]
      rw [ih]
      simp [ho]; omega

/-- **C06** `getAvgSpeed`: in exact arithmetic, if there is a free cell, the result is the mean of the speeds of the free cells. -/
theorem C06_getAvgSpeed (g : Grid XR) (hsz : g.size < 2^32) (v : Nat → ℝ) (hv : ∀ i, i < g.size → g.occ i = false → g.vel i = XR.fin (v i))
    (hfree : ∃ i, i < g.size ∧ g.occ i = false) :
    g.getAvgSpeed = XR.fin ((∑ i ∈ (Finset.range g.size).filter (fun i => g.occ i = false), v i) /
      (((Finset.range g.size).filter (fun i => g.occ i = false)).card : ℝ)) := by
  obtain ⟨i0, hi0, ho0⟩ := hfree
  have hs : g.shape.ncells = g.size := rfl
  have hsum : (((List.range g.size).filter (fun i => !g.occ i)).map v).sum = ∑ i ∈ (Finset.range g.size).filter (fun i => g.occ i = false), v i := by
    rw [← List.sum_toFinset v (List.nodup_range.filter _)]
    congr 1
    ext x; simp
  have hcard : ((List.range g.size).filter (fun i => !g.occ i)).length = ((Finset.range g.size).filter (fun i => g.occ i = false)).card := by
    rw [← List.toFinset_card_of_nodup (List.nodup_range.filter _)]
    congr 1
    ext x; simp
  have htot : ((List.range g.size).filter (fun i => g.occ i)).length + ((List.range g.size).filter (fun i => !g.occ i)).length = g.size := by
    rw [← List.length_eq_length_filter_add]; simp
  have hpos : 0 < ((Finset.range g.size).filter (fun i => g.occ i = false)).card :=
    Finset.card_pos.2 ⟨i0, by simp [hi0, ho0]⟩
  unfold Grid.getAvgSpeed Grid.toList
  rw [hs]
  dsimp only
  rw [show (zero : XR) = XR.fin 0 from rfl, avg_foldl v g _ (fun i hi ho => hv i (by simpa using hi) ho)]
  dsimp only
  rw [hsum, zero_add, zero_add]
  have e : u32sub g.size ((List.range g.size).filter (fun i => g.occ i)).length = ((Finset.range g.size).filter (fun i => g.occ i = false)).card := by
    unfold u32sub; omega
  rw [e]
  show XR.div (XR.fin _) (XR.fin _) = _
  have : (((Finset.range g.size).filter (fun i => g.occ i = false)).card : ℝ) ≠ 0 := by positivity
  simp [XR.div]
  intro hx
  rw [hx hi0] at ho0; cases ho0

/-- non-vacuity: a 3 x 2 grid of unit speed has average speed 1 -/
example : (Grid.create [3,2] (XR.fin 1) (0,0)).getAvgSpeed = XR.fin 1 := by
  have ho : ∀ i, (Grid.create [3,2] (XR.fin 1) (0,0)).occ i = false := by
    intro i
    show XR.lt (XR.fin 1) (XR.fin XR.eps) = false
    simp [XR.lt]; unfold XR.eps; norm_num
  rw [C06_getAvgSpeed _ (by decide) (fun _ => 1) (fun _ _ _ => rfl) ⟨0, by decide, ho 0⟩]
  simp [ho]
  decide

end FMV
