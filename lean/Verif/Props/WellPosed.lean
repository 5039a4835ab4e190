import Verif.Lemmas.Exact
/-! # C17: the discrete Eikonal problem is well posed -/
namespace FMV
open Spec Shape

/-- **C17**: for every well-posed problem (any obstacles, any set of sources) there is exactly one arrival-time map on the
grid that satisfies the upwind discretised Eikonal equation; it is non-negative. -/
theorem C17_unique_solution (P : Problem) (W : P.WellPosed) :
    ∃ U, P.IsSolution U ∧ (∀ i, i < P.N → 0 ≤ U i) ∧ ∀ V, P.IsSolution V → ∀ i, i < P.N → V i = U i := by
  have hc : ∀ i, i < P.dims.prod → ¬ P.source i → ¬ P.obstacle i → 0 < P.h / P.v i :=
    fun i hi _ ho => div_pos W.hpos (W.vpos i hi ho)
  obtain ⟨U, hU⟩ := exists_exSol (c := fun i => P.h / P.v i) (src := P.source) (obs := P.obstacle) hc
  refine ⟨U, (isSolution_iff W U).2 hU, hU.nonneg W.fits hc, ?_⟩
  intro V hV i hi
  have hV' := (isSolution_iff W V).1 hV
  exact le_antisymm (ExSol.le W.fits hc hV' hU i hi) (ExSol.le W.fits hc hU hV' i hi)

/-- non-vacuity: a 3x2 grid with an obstacle and a source -/
example : (⟨[3,2], 1, fun _ => 2, fun i => i = 1, fun i => i = 0⟩ : Problem).WellPosed :=
  ⟨by decide, by decide, by decide, by norm_num, fun _ _ _ => by norm_num⟩

/-- Sources are indeed at time 0 and their free neighbours at a positive finite time: the solution is not trivial. -/
example (U : Nat → WithTop ℝ) (hU : (⟨[3,2], 1, fun _ => 2, fun i => i = 1, fun i => i = 0⟩ : Problem).IsSolution U) :
    U 0 = 0 ∧ U 1 = ⊤ := ⟨(hU 0 (by decide)).1 rfl, (hU 1 (by decide)).2.1 (by decide) rfl⟩

end FMV
