import Verif.Props.F64Accuracy
import Mathlib.Order.OrderIsoNat
/-! C100: in doubles, a run of FMM that stops at a goal (or is looked at before it ends) leaves accurate times in all FROZEN cells, the goal among them. -/
set_option linter.unusedSectionVars false
set_option linter.unusedVariables false
namespace FMV
open Spec Shape XR FMM

namespace FMM
variable {F : Type} [Arith F]

/-- the same run without goal -/
theorem drop_goal {cfg : Cfg F} {dims : List Nat} {g : Grid F} {pts : List Nat} (hin : Input dims g pts) {n : Nat} {s : St F}
    (hs : Steps (StepMin cfg) n (init cfg g [] pts) s) :
    Steps (StepMin { cfg with goal := noGoal }) n (init { cfg with goal := noGoal } g [] pts) { s with stop := false } := by
  have gen : ∀ (S u : St F) (m : Nat), S = init cfg g [] pts → Steps (StepMin cfg) m S u →
      Steps (StepMin { cfg with goal := noGoal }) m (init { cfg with goal := noGoal } g [] pts) { u with stop := false } := by
    intro S u m hS h
    induction h with
    | refl =>
      have e : ({ init cfg g [] pts with stop := false } : St F) = init { cfg with goal := noGoal } g [] pts := by
        have h1 := init_stop cfg g [] pts
        have h2 : init { cfg with goal := noGoal } g [] pts = init cfg g [] pts := rfl
        rw [h2]
        generalize init cfg g [] pts = a at h1
        cases a; simp_all
      rw [hS, e]
      exact .refl _
    | @tail n s a b h1 h2 ih =>
      obtain ⟨hd, x, hx, rfl⟩ := h2
      rw [hS] at h1
      have hstop : a.stop = false := by
        by_contra h
        exact hd (Or.inl (by simpa using h))
      have ea : ({ a with stop := false } : St F) = a := by cases a; simp_all
      have ih' := ih hS
      rw [ea] at ih'
      have hxlt : x < dims.prod := (heap_lt hin (h1.mono (fun _ _ => StepMin.any))).2 x hx.1
      have hne : x ≠ noGoal := by have := hin.fits.lt; unfold noGoal; omega
      refine .tail ih' ⟨hd, x, hx, ?_⟩
      have e := expand_goal cfg eikS a x noGoal
      rw [if_neg hne, hstop] at e
      exact e.symm
  exact gen _ s n rfl hs

/-- the stop flag is set only when the goal has been FROZEN -/
theorem stop_goal {cfg : Cfg F} {g : Grid F} {pts : List Nat} {n : Nat} {s : St F} (hs : Steps (StepAny cfg) n (init cfg g [] pts) s) :
    s.stop = true → s.g.state cfg.goal = .frozen := by
  refine Steps.inv (I := fun s : St F => s.stop = true → s.g.state cfg.goal = .frozen) ?_ hs (fun h => by rw [init_stop] at h; cases h)
  rintro a b ih ⟨hd, eik, x, hx, rfl⟩ hb
  rw [expand_frozen_iff]
  by_cases h : cfg.goal = x
  · exact Or.inr h
  · left
    apply ih
    have e := expand_goal cfg eik a x cfg.goal
    have e2 : (expand cfg eik a x).stop = if x = cfg.goal then true else a.stop := congrArg St.stop e
    rw [e2, if_neg (fun hh => h hh.symm)] at hb
    exact hb
end FMM

variable {R : Rounding}

/-- every run of FMM in doubles can be continued to its end -/
theorem FMM.completes64 (cfg : Cfg (F64 R)) {dims : List Nat} {g : Grid (F64 R)} {pts : List Nat} (hin : Input dims g pts) {n : Nat} {s : St (F64 R)}
    (hs : Steps (StepMin cfg) n (FMM.init cfg g [] pts) s) : ∃ k t, Steps (StepMin cfg) k s t ∧ FMM.Done t := by
  have hacc : Acc (fun b a => StepMin cfg a b) (FMM.init cfg g [] pts) := by
    by_contra h
    rw [not_acc_iff_exists_descending_chain] at h
    obtain ⟨f, h0, hf⟩ := h
    exact (C47_doubles R cfg dims g pts hin).2 ⟨f, h0, fun n => (hf n).any⟩
  have hacc' : Acc (fun b a => StepMin cfg a b) s := by
    have gen : ∀ (S u : St (F64 R)) (m : Nat), Acc (fun b a => StepMin cfg a b) S → Steps (StepMin cfg) m S u → Acc (fun b a => StepMin cfg a b) u := by
      intro S u m ha h
      induction h with
      | refl => exact ha
      | tail _ h2 ih => exact (ih ha).inv h2
    exact gen _ _ _ hacc hs
  clear hs
  induction hacc' with
  | intro s _ ih =>
    by_cases hd : FMM.Done s
    · exact ⟨0, s, .refl _, hd⟩
    · obtain ⟨t, ht⟩ := progress (F64.lt_laws R) cfg s hd
      obtain ⟨k, u, hu, hdu⟩ := ih t ht
      exact ⟨1 + k, u, Steps.append (.tail (.refl _) ht) hu, hdu⟩

section final
variable {dims : List Nat} {g : Grid (F64 R)} {h : ℝ} {v : Nat → ℝ} {pts : List Nat} {cm cM : ℝ}

/-- **C100** (frozen cells): in doubles, in every state of a run of FMM, with or without goal, finished or not, the time of every FROZEN cell is the exact solution up to the
relative error `relErr`.  `K`: no reachable cell is more than `K` moves away. -/
theorem C100_frozen (K : Nat) (I : DInput dims g h v pts cm cM (2 * cM * (K + 1))) (hcc : cm ≤ cM) (hK : Within dims g pts K) (hfr : Fresh g)
    (ha : StartsApart dims g pts) (U : Nat → WithTop ℝ) (hU : I.X.problem.IsSolution U) (cfg : Cfg (F64 R)) (hcfg : cfg.heur = .none) (n : Nat)
    (s : St (F64 R)) (hs : Steps (StepMin cfg) n (FMM.init cfg g [] pts) s) (i : Nat) (hi : i < dims.prod) (hf : s.g.state i = .frozen) :
    RelClose (relErr dims.length cm (2 * cM * (K + 1))) (U i) (s.g.value i).1 := by
  have hin : Input dims g pts := ⟨I.X.fits, I.X.shape, I.X.inside⟩
  have h1 := drop_goal hin hs
  obtain ⟨k, t, h2, hd⟩ := FMM.completes64 _ hin h1
  have h3 := Steps.append h1 h2
  have he : t.heap = [] := C14_no_goal_ends_empty _ dims g pts hin (by have := hin.fits.lt; show dims.prod ≤ noGoal; unfold noGoal; omega) _ t (h3.mono (fun _ _ => StepMin.any)) hd
  have h4 := C59_FMM K I hcc hK hfr ha U hU { cfg with goal := noGoal } hcfg _ t h3 he i hi
  have h5 := C12_frozen_final _ _ t k (h2.mono (fun _ _ => StepMin.any)) i hf
  unfold Grid.value at h4 ⊢
  rw [h5] at h4
  exact h4

/-- **C100** (goal): in doubles, when a run of FMM with a goal has ended, the time at the goal is the exact solution up to `relErr`, `+inf` if it cannot be reached. -/
theorem C100_goal (K : Nat) (I : DInput dims g h v pts cm cM (2 * cM * (K + 1))) (hcc : cm ≤ cM) (hK : Within dims g pts K) (hfr : Fresh g)
    (ha : StartsApart dims g pts) (U : Nat → WithTop ℝ) (hU : I.X.problem.IsSolution U) (cfg : Cfg (F64 R)) (hcfg : cfg.heur = .none) (hgoal : cfg.goal < dims.prod) (n : Nat)
    (s : St (F64 R)) (hs : Steps (StepMin cfg) n (FMM.init cfg g [] pts) s) (hd : FMM.Done s) :
    RelClose (relErr dims.length cm (2 * cM * (K + 1))) (U cfg.goal) (s.g.value cfg.goal).1 := by
  rcases hd with hd | hd
  · exact C100_frozen K I hcc hK hfr ha U hU cfg hcfg n s hs _ hgoal (stop_goal (hs.mono (fun _ _ => StepMin.any)) hd)
  · exact C59_FMM K I hcc hK hfr ha U hU cfg hcfg n s hs hd _ hgoal
end final

/-- non-vacuity: rounding to nearest, a 3 x 3 grid of doubles, start in the corner, goal in the middle: the run ends with the goal, whose time is accurate to `2e-8` -/
example : ∃ (g : Grid (F64 Rounding.nearest)) (I : DInput [3,3] g 1 (fun _ => 1) [0] 1 1 (2 * 1 * (((8:ℕ):ℝ) + 1))), Fresh g ∧ StartsApart [3,3] g [0] ∧ Within [3,3] g [0] 8 ∧
    relErr 2 1 (2 * 1 * (((8:ℕ):ℝ) + 1)) < 2 / 10^8 ∧ ∃ U, I.X.problem.IsSolution U ∧ ∃ n s, Steps (StepMin ⟨false, .none, fun _ => Arith.zero, 4⟩) n
      (FMM.init ⟨false, .none, fun _ => Arith.zero, 4⟩ g [] [0]) s ∧ FMM.Done s ∧ RelClose (relErr 2 1 (2 * 1 * (((8:ℕ):ℝ) + 1))) (U 4) (s.g.value 4).1 := by
  set g : Grid (F64 Rounding.nearest) := Grid.create [3,3] Arith.one (0,0) with hg
  have X : XInput [3,3] (gridX g) 1 (fun _ => 1) [0] :=
    ⟨⟨by decide, by decide, by decide⟩, by decide, rfl, by decide, one_pos, rfl, fun _ _ _ => rfl⟩
  have hin : Input [3,3] g [0] := ⟨X.fits, rfl, X.inside⟩
  have hfr : Fresh g := ⟨fun _ => rfl, fun _ => rfl, fun _ => rfl⟩
  have hap : StartsApart [3,3] g [0] := by
    intro i hi j' hj _ hadj
    rw [List.mem_singleton.1 hi, List.mem_singleton.1 hj] at hadj
    obtain ⟨k, _, _, e, _⟩ := hadj
    omega
  have I : DInput [3,3] g 1 (fun _ => 1) [0] 1 1 (2 * 1 * (((8:ℕ):ℝ) + 1)) := by
    have b1 : (2:ℝ)^(-200:ℤ) ≤ 1 := by
      have : (2:ℝ)^(-200:ℤ) ≤ (2:ℝ)^(0:ℤ) := zpow_le_zpow_right₀ (by norm_num) (by norm_num)
      simpa using this
    have b2 : (1:ℝ) ≤ (2:ℝ)^(200:ℤ) := by
      have : (2:ℝ)^(0:ℤ) ≤ (2:ℝ)^(200:ℤ) := zpow_le_zpow_right₀ (by norm_num) (by norm_num)
      simpa using this
    have b3 : (2:ℝ) * 1 * (((8:ℕ):ℝ) + 1) ≤ (2:ℝ)^(300:ℤ) := by
      have : (2:ℝ)^(5:ℤ) ≤ (2:ℝ)^(300:ℤ) := zpow_le_zpow_right₀ (by norm_num) (by norm_num)
      refine le_trans ?_ this
      norm_num
    refine ⟨X, b1, b2, fun _ _ _ => b2, one_pos, fun _ _ _ => by norm_num, fun _ _ _ => by norm_num, by norm_num, by norm_num, b3, ?_, ?_⟩
    · show 640 * ((2:ℕ):ℝ)^4 * uu * (2 * 1 * (((8:ℕ):ℝ) + 1))^2 ≤ 1^2
      unfold uu; norm_num
    · unfold XR.eps; norm_num
  have hW : Within [3,3] g [0] 8 := DInput.within_cells X
  obtain ⟨U, hU, _⟩ := C17_unique_solution X.problem X.wellPosed
  obtain ⟨n, s, _, hs, hd⟩ := C13_doubles Rounding.nearest ⟨false, .none, fun _ => Arith.zero, 4⟩ rfl [3,3] g [0] hin
  exact ⟨g, I, hfr, hap, hW, by unfold relErr; norm_num, U, hU, n, s, hs, hd, C100_goal 8 I (le_refl _) hW hfr hap U hU _ rfl (by decide) n s hs hd⟩
end FMV
