import Verif.Lemmas.ReflectGMM
import Verif.Props.HeapRun
import Verif.Props.GMMTerm
/-!
C61: the times computed by GMM.
-/
namespace FMV
open FMM Arith Spec XR Shape

namespace GMM
theorem maxSpeed_hom (g : Grid XQ) : g.toXR.getMaxSpeed = g.getMaxSpeed.toXR := by
  unfold Grid.getMaxSpeed Grid.toList
  rw [Grid.toXR_shape]
  have h0 : (Arith.zero : XR) = (Arith.zero : XQ).toXR := XQ.toXR_zero.symm
  rw [h0]
  generalize (Arith.zero : XQ) = z
  generalize List.range g.shape.ncells = l
  induction l generalizing z with
  | nil => rfl
  | cons a l ih =>
    simp only [List.map_cons, List.foldl_cons]
    have hl : Arith.lt z.toXR (g.toXR.cells a).occupancy = Arith.lt z (g.cells a).occupancy := XQ.toXR_lt _ _
    rw [hl]
    split
    · exact ih _
    · exact ih _

theorem deltau_hom (dt : XQ) (g : Grid XQ) : deltau dt.toXR g.toXR = (deltau dt g).toXR := by
  unfold deltau
  rw [maxSpeed_hom]
  have h0 : (Arith.zero : XR) = (Arith.zero : XQ).toXR := XQ.toXR_zero.symm
  have hl : Arith.lt dt.toXR (Arith.zero : XR) = Arith.lt dt Arith.zero := by rw [h0]; exact XQ.toXR_lt _ _
  rw [hl]
  split
  · show XR.div _ _ = _
    have h1 : (Arith.one : XR) = (Arith.one : XQ).toXR := by show XR.fin _ = XR.fin _; norm_num
    rw [h1]; exact (XQ.toXR_div _ _).symm
  · rfl
end GMM

namespace GMMRing

/-- The map: a ring of one-cell-wide corridors around three obstacles, 5 columns and 3 rows, cells of size 1/10; the lower row has speed 1/10, the other free cells speed 1. -/
def speeds : List Rat := [1/10, 1/10, 1/10, 1/10, 1/10, 1, 0, 0, 0, 1, 1, 1, 1, 1, 1]

def mapQ : Grid XQ :=
  { shape := Shape.mk' [5, 3], leaf := .fin (1/10), clean := true,
    cells := fun i => { (Cell.default : Cell XQ) with occupancy := .fin (speeds.getD i 1), index := i }, occupied := [6, 7, 8], scratch := (0, 0) }

/-- the map -/
noncomputable def map : Grid XR := mapQ.toXR

noncomputable def speed (i : Nat) : ℝ := ((speeds.getD i 1 : Rat) : ℝ)

theorem input : XInput [5, 3] map (1/10) speed [5] :=
  ⟨⟨by decide, by decide, by decide⟩, by decide, rfl, by decide, by norm_num, by show XR.fin _ = XR.fin _; norm_num, fun i _ _ => rfl⟩

theorem fresh : Fresh map := ⟨fun _ => rfl, fun _ => rfl, fun _ => by show XR.fin _ = XR.fin _; norm_num⟩

theorem apart : StartsApart [5, 3] map [5] := by
  intro i hi j hj _ hadj
  obtain ⟨k, h0, h1, h2, h3⟩ := hadj
  fin_cases hi; fin_cases hj
  omega

theorem step : GMM.deltau (fin (-1)) map = fin 1 := by
  have h : (GMM.deltau (.fin (-1)) mapQ : XQ) = .fin 1 := by decide +kernel
  have := GMM.deltau_hom (.fin (-1)) mapQ
  rw [h] at this
  have e : XQ.toXR (.fin (-1)) = fin (-1) := by show XR.fin _ = XR.fin _; norm_num
  have e' : XQ.toXR (.fin 1) = fin 1 := by show XR.fin _ = XR.fin _; norm_num
  rw [e, e'] at this
  exact this

noncomputable def gmm : GMM.St XR := GMM.run (fin 1) noGoal 60 (GMM.init eikS map [] [5])
def gmmQ : GMM.St XQ := GMM.run (.fin 1) noGoal 60 (GMM.init eikS mapQ [] [5])
noncomputable def fmm : BSt XR DHeap := bRun DHeap.band (Cfg.plain false noGoal) eikS 16 (bInit DHeap.band (Cfg.plain false noGoal) map (DHeap.new 15) [5])
def fmmQ : BSt XQ DHeap := bRun DHeap.band (Cfg.plain false noGoal) eikS 16 (bInit DHeap.band (Cfg.plain false noGoal) mapQ (DHeap.new 15) [5])

theorem gmm_eq : gmm = gmmQ.toXR := by
  have := GMM.reflect (.fin 1) noGoal mapQ [5] 60 (by decide +kernel) (by decide +kernel)
  have e' : XQ.toXR (.fin 1) = fin 1 := by show XR.fin _ = XR.fin _; norm_num
  rw [e'] at this
  exact this

theorem fmm_eq : fmm = fmmQ.toXR := FMM.reflect dheap_hom mapQ (DHeap.new 15) [5] 16 (by decide +kernel)

theorem gmm_done : GMM.Done gmm := by
  rw [gmm_eq]
  have h1 : gmmQ.rest = [] := by decide +kernel
  have h2 : gmmQ.gamma = [] := by decide +kernel
  exact ⟨h1, Or.inr h2⟩

theorem gmm_value : gmm.g.value 4 = fin 5 := by
  rw [gmm_eq]
  have : gmmQ.g.value 4 = .fin 5 := by decide +kernel
  show (gmmQ.g.value 4).toXR = _
  rw [this]; show XR.fin _ = XR.fin _; norm_num

theorem fmm_value : fmm.g.value 4 = fin (8/5) := by
  rw [fmm_eq]
  have : fmmQ.g.value 4 = .fin (8/5) := by decide +kernel
  show (fmmQ.g.value 4).toXR = _
  rw [this]; show XR.fin _ = XR.fin _; norm_num

theorem exact_le (U : Nat → WithTop ℝ) (hU : input.problem.IsSolution U) : U 4 ≤ ((8/5 : ℝ) : WithTop ℝ) := by
  have h1 := ((C57_FMM_binary_heap_accurate input fresh apart (List.nodup_singleton 5) U hU (Cfg.plain false noGoal) rfl rfl (by decide) (DHeap.emptied_new _) 16 (by decide)).2 4 (by decide)).1
  have e : (bRun DHeap.band (Cfg.plain false noGoal) eikS 16 (bInit DHeap.band (Cfg.plain false noGoal) map (DHeap.new ([5, 3] : List Nat).prod) [5])).g.value 4 = fin (8/5) := fmm_value
  rw [e] at h1
  exact h1

end GMMRing

namespace GMMOpen

/-- The map: 3 columns and 2 rows without obstacles, cells of size 1, the greatest speed is 1. -/
def speeds : List Rat := [1, 1, 8005/8868, 1, 5/6, 8005/14409]

def mapQ : Grid XQ :=
  { shape := Shape.mk' [3, 2], leaf := .fin (1), clean := true,
    cells := fun i => { (Cell.default : Cell XQ) with occupancy := .fin (speeds.getD i 1), index := i }, occupied := [], scratch := (0, 0) }

/-- the map -/
noncomputable def map : Grid XR := mapQ.toXR

noncomputable def speed (i : Nat) : ℝ := ((speeds.getD i 1 : Rat) : ℝ)

theorem input : XInput [3, 2] map (1) speed [3] :=
  ⟨⟨by decide, by decide, by decide⟩, by decide, rfl, by decide, by norm_num, by show XR.fin _ = XR.fin _; norm_num, fun i _ _ => rfl⟩

theorem fresh : Fresh map := ⟨fun _ => rfl, fun _ => rfl, fun _ => by show XR.fin _ = XR.fin _; norm_num⟩

theorem apart : StartsApart [3, 2] map [3] := by
  intro i hi j hj _ hadj
  obtain ⟨k, h0, h1, h2, h3⟩ := hadj
  fin_cases hi; fin_cases hj
  omega

theorem step : GMM.deltau (fin (-1)) map = fin 1 := by
  have h : (GMM.deltau (.fin (-1)) mapQ : XQ) = .fin 1 := by decide +kernel
  have := GMM.deltau_hom (.fin (-1)) mapQ
  rw [h] at this
  have e : XQ.toXR (.fin (-1)) = fin (-1) := by show XR.fin _ = XR.fin _; norm_num
  have e' : XQ.toXR (.fin 1) = fin 1 := by show XR.fin _ = XR.fin _; norm_num
  rw [e, e'] at this
  exact this

noncomputable def gmm : GMM.St XR := GMM.run (fin 1) noGoal 40 (GMM.init eikS map [] [3])
def gmmQ : GMM.St XQ := GMM.run (.fin 1) noGoal 40 (GMM.init eikS mapQ [] [3])
noncomputable def fmm : BSt XR DHeap := bRun DHeap.band (Cfg.plain false noGoal) eikS 7 (bInit DHeap.band (Cfg.plain false noGoal) map (DHeap.new 6) [3])
def fmmQ : BSt XQ DHeap := bRun DHeap.band (Cfg.plain false noGoal) eikS 7 (bInit DHeap.band (Cfg.plain false noGoal) mapQ (DHeap.new 6) [3])

theorem gmm_eq : gmm = gmmQ.toXR := by
  have := GMM.reflect (.fin 1) noGoal mapQ [3] 40 (by decide +kernel) (by decide +kernel)
  have e' : XQ.toXR (.fin 1) = fin 1 := by show XR.fin _ = XR.fin _; norm_num
  rw [e'] at this
  exact this

theorem fmm_eq : fmm = fmmQ.toXR := FMM.reflect dheap_hom mapQ (DHeap.new 6) [3] 7 (by decide +kernel)

theorem gmm_done : GMM.Done gmm := by
  rw [gmm_eq]
  have h1 : gmmQ.rest = [] := by decide +kernel
  have h2 : gmmQ.gamma = [] := by decide +kernel
  exact ⟨h1, Or.inr h2⟩

theorem gmm_value : gmm.g.value 5 = fin 3 := by
  rw [gmm_eq]
  have : gmmQ.g.value 5 = .fin 3 := by decide +kernel
  show (gmmQ.g.value 5).toXR = _
  rw [this]; show XR.fin _ = XR.fin _; norm_num

theorem fmm_value : fmm.g.value 5 = fin (23997/8005) := by
  rw [fmm_eq]
  have : fmmQ.g.value 5 = .fin (23997/8005) := by decide +kernel
  show (fmmQ.g.value 5).toXR = _
  rw [this]; show XR.fin _ = XR.fin _; norm_num

theorem exact_le (U : Nat → WithTop ℝ) (hU : input.problem.IsSolution U) : U 5 ≤ ((23997/8005 : ℝ) : WithTop ℝ) := by
  have h1 := ((C57_FMM_binary_heap_accurate input fresh apart (List.nodup_singleton 3) U hU (Cfg.plain false noGoal) rfl rfl (by decide) (DHeap.emptied_new _) 7 (by decide)).2 5 (by decide)).1
  have e : (bRun DHeap.band (Cfg.plain false noGoal) eikS 7 (bInit DHeap.band (Cfg.plain false noGoal) map (DHeap.new ([3, 2] : List Nat).prod) [3])).g.value 5 = fin (23997/8005) := fmm_value
  rw [e] at h1
  exact h1

end GMMOpen

/-- **C61** (part): with every positive step, GMM without goal stops; then exactly the cells that can be reached are frozen, and no time is below the exact one. Missing, and
false: an upper bound (`C61_GMM_far_off`, `C61_GMM_not_exact`). -/
theorem C61_GMM_partial {dims : List Nat} {g : Grid XR} {h : ℝ} {v : Nat → ℝ} {pts : List Nat} (X : XInput dims g h v pts) (hfr : Fresh g)
    (goal : Nat) (hgoal : dims.prod ≤ goal) (d : ℝ) (hd : 0 < d) (U : Nat → WithTop ℝ) (hU : X.problem.IsSolution U) :
    ∃ n s, Steps (GMM.Step (fin d) goal eikS) n (GMM.init eikS g [] pts) s ∧ GMM.Done s ∧ (∀ i, s.g.state i = .frozen ↔ reach dims g pts i) ∧
      ∀ i, i < dims.prod → U i ≤ toT (s.g.value i) := by
  obtain ⟨n, s, hs, hdn, hf⟩ := C49_GMM_total X hfr goal hgoal d hd
  exact ⟨n, s, hs, hdn, hf, fun i hi => (C18_GMM X hfr U hU (fin d) goal n s hs i hi).2⟩

open GMMRing in
/-- **C61 is false for cell sizes other than 1**: the default step is the inverse of the greatest speed, whatever the size of the cells. There is a map with cells of size
1/10 on which GMM, with its default step, ends with time 5 in a cell whose exact time is at most 1.6. -/
theorem C61_GMM_far_off :
    ∃ (g : Grid XR) (v : Nat → ℝ) (X : XInput [5, 3] g (1/10) v [5]), Fresh g ∧ StartsApart [5, 3] g [5] ∧ (∃ U, X.problem.IsSolution U) ∧
      ∃ n s, Steps (GMM.Step (GMM.deltau (fin (-1)) g) noGoal eikS) n (GMM.init eikS g [] [5]) s ∧ GMM.Done s ∧ s.g.value 4 = fin 5 ∧
        ∀ U, X.problem.IsSolution U → U 4 ≤ ((8/5 : ℝ) : WithTop ℝ) := by
  obtain ⟨n, hn⟩ := GMM.run_steps (fin 1) noGoal 60 (GMM.init eikS map [] [5])
  refine ⟨map, speed, input, fresh, apart, (C17_unique_solution input.problem input.wellPosed).imp (fun _ h => h.1), n, gmm, ?_, gmm_done, gmm_value, exact_le⟩
  rw [step]; exact hn

open GMMOpen in
/-- **C61 is false for cells of size 1**: there is a 3 x 2 map without obstacles, with unit cells and speeds between 1/2 and 1, on which GMM with its default step (here 1)
ends with time 3 in a cell whose exact time is at most 2.9978. -/
theorem C61_GMM_not_exact :
    ∃ (g : Grid XR) (v : Nat → ℝ) (X : XInput [3, 2] g 1 v [3]), Fresh g ∧ StartsApart [3, 2] g [3] ∧ (∃ U, X.problem.IsSolution U) ∧
      ∃ n s, Steps (GMM.Step (GMM.deltau (fin (-1)) g) noGoal eikS) n (GMM.init eikS g [] [3]) s ∧ GMM.Done s ∧ s.g.value 5 = fin 3 ∧
        ∀ U, X.problem.IsSolution U → U 5 ≤ ((23997/8005 : ℝ) : WithTop ℝ) := by
  obtain ⟨n, hn⟩ := GMM.run_steps (fin 1) noGoal 40 (GMM.init eikS map [] [3])
  refine ⟨map, speed, input, fresh, apart, (C17_unique_solution input.problem input.wellPosed).imp (fun _ h => h.1), n, gmm, ?_, gmm_done, gmm_value, exact_le⟩
  rw [step]; exact hn

end FMV
