import Verif.Props.FibHeap
import Verif.Props.F64Accuracy
/-!
# C57/C59: FMM with its real heaps, in rounded 64-bit arithmetic
-/
set_option linter.unusedSectionVars false
set_option linter.unusedVariables false
namespace FMV
open Spec Shape XR FMM
variable {R : Rounding} {dims : List Nat} {g : Grid (F64 R)} {h : ℝ} {v : Nat → ℝ} {pts : List Nat} {cm cM A : ℝ} {B : Type}

/-- the doubles that are not NaN -/
def Number64 (x : F64 R) : Prop := x.1 ≠ .nan

/-- the doubles that are not NaN are weakly ordered -/
theorem F64.weakOrder : WeakOrder (fun x : F64 R => Number64 x) where
  asymm a b ha hb h := XR.weakOrder.asymm a.1 b.1 ha hb h
  trans a b c ha hb hc h1 h2 := XR.weakOrder.trans a.1 b.1 c.1 ha hb hc h1 h2

namespace DInput

theorem key64 {g' : Grid (F64 R)} (hz : ∀ i, ((g'.cells i).hValue).1 = fin 0) (hg : GoodG (gridX g')) (i : Nat) : (key g' i).1 = (g'.value i).1 := total64 hz hg i

theorem number64 {g' : Grid (F64 R)} (hz : ∀ i, ((g'.cells i).hValue).1 = fin 0) (hg : GoodG (gridX g')) (i : Nat) : Number64 (key g' i) := by
  unfold Number64
  rw [key64 hz hg]
  have := hg i
  rw [gridX_value] at this
  rcases this with h1 | ⟨r, _, h1⟩ <;> rw [h1] <;> simp

/-- visiting a neighbour of the cell just frozen respects the contract of the narrow band -/
theorem FMid.safe (I : DInput dims g h v pts cm cM A) {w : ℝ} {L : Nat} (P : I.X.Par I.θ I.β w L) (hwA : w * (L + 1) ≤ A) (hna : I.X.NonAdj) {cfg : Cfg (F64 R)}
    (hcfg : cfg.heur = .none) {x j : Nat} {rest : List Nat} {s : St (F64 R)} (m : I.FMid w L x (j :: rest) s) (hj : j ∈ (Shape.mk' dims).nbrs x)
    (hjr : j ∉ rest) : Safe cfg eikS Number64 dims.prod s j := by
  have hjN : j < dims.prod := FMM.nbr_lt I.X.fits (m.q.fzN x m.q.fx) hj
  have m' := FMid.relax I P hwA hna hcfg m hj hjr
  have hocc : s.g.occ j = g.occ j := SameMap.occ_eq m.map j
  have hA : ∀ i (r : ℝ), tf s.g i = (r : WithTop ℝ) → r ≤ A := fun i r hr => le_trans (m.q.bnd i r hr) hwA
  refine ⟨hjN, ?_, fun hn => (m.q.nar j hn).1, fun y _ => number64 m.hz m.good y, fun y _ => number64 m'.hz m'.good y, ?_, ?_⟩
  · intro h1 h2 h3
    have hnp := m.q.not_init I.X hna hj (by rw [hocc] at h2; exact h2) (by rw [h1]; simp)
    rcases m.q.heapK j h3 with h4 | h4 | h4
    · rw [h1] at h4; cases h4
    · rw [h1] at h4; cases h4
    · exact hnp h4
  · intro hn ho hb
    have hval : (FMM.relax cfg eikS s j).g.value j = (eikS s.g j).1 := by
      rcases relax_cases cfg eikS s j with ⟨hsk, e⟩ | ⟨_, _, _, e⟩ | ⟨_, _, hb', e⟩ | ⟨_, hn', e⟩
      · rw [hn, ho] at hsk; simp at hsk
      · rw [e]; simp [Grid.value_setValue]
      · rw [hb] at hb'; cases hb'
      · rw [hn] at hn'; cases hn'
    show Arith.lt (key s.g j).1 (key (FMM.relax cfg eikS s j).g j).1 = false
    rw [key64 m.hz m.good, key64 m'.hz m'.good, hval]
    have h1 : Arith.lt (eikS s.g j).1.1 (s.g.value j).1 = true := (F64.margin_laws R).margin_lt _ _ hb
    exact XR.ltLaws.asymm h1
  · intro hn ho hb
    have hval : (FMM.relax cfg eikS s j).g.value j = s.g.value j := by
      rcases relax_cases cfg eikS s j with ⟨hsk, e⟩ | ⟨_, _, hb', e⟩ | ⟨_, _, _, e⟩ | ⟨_, hn', e⟩
      · rw [hn, ho] at hsk; simp at hsk
      · rw [hb] at hb'; cases hb'
      · rw [e]; simp
      · rw [hn] at hn'; cases hn'
    apply Subtype.ext
    rw [key64 m'.hz m'.good, key64 m.hz m.good, hval]

end DInput

/-- **C57** (doubles): whatever narrow band meets its contract, the state of FMM's loop, computed in doubles, is after any number of iterations a state of the loop whose
narrow band is a bag that returns one of its smallest elements; the run is as long. -/
theorem C57_FMM_refines_doubles (K : Nat) (I : DInput dims g h v pts cm cM (2 * cM * (K + 1))) (hcc : cm ≤ cM) (hK : Within dims g pts K) (hfr : Fresh g)
    (ha : StartsApart dims g pts) (hnd : pts.Nodup) (cfg : Cfg (F64 R)) (hd : cfg.dup = false) (hcfg : cfg.heur = .none) (N : Band (F64 R) B) (b0 : B)
    (hN : RightBand N b0 Number64 dims.prod) (k : Nat) :
    ∃ m s, Steps (StepMin cfg) m (FMM.init cfg g [] pts) s ∧ (bRun N cfg eikS k (bInit N cfg g b0 pts)).g = s.g ∧
      (BDone N (bRun N cfg eikS k (bInit N cfg g b0 pts)) ↔ Done s) ∧ (Done s ∨ m = k) := by
  have P := I.par hcc hK
  have hwA : 2 * cM * ((K : ℝ) + 1) ≤ 2 * cM * (K + 1) := le_refl _
  have hna : I.X.NonAdj := by
    intro i hi ho j hj hjp
    exact ha i hi j hjp ho ((axisAdjacent_iff I.X.fits (I.X.inside i hi)).1 hj).2
  have R0 : Rel N b0 Number64 dims.prod (bInit N cfg g b0 pts) (FMM.init cfg g [] pts) := by
    refine Rel.init N b0 Number64 dims.prod cfg g I.X.inside hnd ?_
    intro i hi
    have e : applyHeur cfg (g.setValue i Arith.zero) i = g.setValue i Arith.zero := by unfold applyHeur; rw [hcfg]
    rw [e]
    have hz : ∀ k, (((g.setValue i Arith.zero).cells k).hValue).1 = fin 0 := DInput.hz_setValue (fun k => by rw [hfr.hValue k]; rfl) _ _
    refine DInput.number64 hz (DInput.good_setValue ?_ (Or.inr ⟨0, le_refl _, rfl⟩)) i
    intro k; rw [gridX_value, hfr.value]; exact Or.inl rfl
  have hstep : ∀ m (c : BSt (F64 R) B) s, Steps (StepMin cfg) m (FMM.init cfg g [] pts) s → Rel N b0 Number64 dims.prod c s → ¬ Done s →
      ∃ s', StepMin cfg s s' ∧ Rel N b0 Number64 dims.prod (bStep N cfg eikS c) s' := by
    intro m c s hs Rl hdone
    have J := DInput.FInv.reach I P hwA hna hfr hcfg hs
    have hsh : s.g.shape = Shape.mk' dims := J.map.shape.trans I.X.shape
    have st := Rl.step hN hd (eik := eikS) hdone (fun y _ => DInput.number64 J.hz J.good y)
      (M := fun l s => l.Nodup ∧ ∃ x, I.FMid (2 * cM) K x l s ∧ ∀ j ∈ l, j ∈ (Shape.mk' dims).nbrs x) ?_ ?_
    · exact ⟨_, ⟨hdone, _, st.1, rfl⟩, st.2⟩
    · rintro j rest t ⟨hn, x, m, hl⟩
      rw [List.nodup_cons] at hn
      have hjx := hl j (by simp)
      exact ⟨DInput.FMid.safe I P hwA hna hcfg m hjx hn.1, hn.2, x, DInput.FMid.relax I P hwA hna hcfg m hjx hn.1, fun k hk => hl k (by simp [hk])⟩
    · rintro x ⟨hx, hmin⟩
      have hmin' : ∀ y ∈ s.heap, tf s.g x ≤ tf s.g y := by
        intro y hy
        have h1 : Arith.lt ((s.g.cells y).total).1 ((s.g.cells x).total).1 = false := hmin y hy
        rw [DInput.total64 J.hz J.good, DInput.total64 J.hz J.good] at h1
        by_contra hlt
        have h2 := (lt_ofT (tf s.g y) (tf s.g x)).2 (not_le.1 hlt)
        unfold tf tv at h2
        rw [(J.good y).ofT_toT, (J.good x).ofT_toT, gridX_value, gridX_value, h1] at h2
        cases h2
      have mm := J.q.pop I.X P hx hmin'
      rw [hsh]
      refine ⟨nbrs_nodup I.X.fits (J.q.heapN x hx), x, ⟨J.map.trans (popped_sameMap s x), ?_, DInput.hz_setState J.hz _ _, ?_⟩, fun _ h => h⟩
      · intro k; simp only [FMM.popped, gridX_value, Grid.value_setState]; exact J.good k
      · have e1 : tf (FMM.popped s x).g = tf s.g := by funext k; unfold tf tv; simp [FMM.popped]
        have e2 : (FMM.popped s x).g.state = fun k => if k = x then .frozen else s.g.state k := by
          funext k; simp [FMM.popped, Grid.state_setState]
        rw [e1, e2]
        exact mm
  obtain ⟨m, s, a, b, c⟩ := Rel.run hN hstep k _ 0 _ (.refl _) R0
  exact ⟨m, s, a, b.1, b.done hN, by simpa using c⟩

/-- **C57/C59** for FMM with any narrow band that meets its contract, in doubles (without goal): after at most (cells + initial points) iterations the loop has ended, and
every time is the exact solution up to the relative error `relErr`, `+inf` exactly where that is, never NaN. -/
theorem C57_FMM_accurate_doubles (K : Nat) (I : DInput dims g h v pts cm cM (2 * cM * (K + 1))) (hcc : cm ≤ cM) (hK : Within dims g pts K) (hfr : Fresh g)
    (ha : StartsApart dims g pts) (hnd : pts.Nodup) (U : Nat → WithTop ℝ) (hU : I.X.problem.IsSolution U) (cfg : Cfg (F64 R)) (hd : cfg.dup = false)
    (hcfg : cfg.heur = .none) (hgoal : dims.prod ≤ cfg.goal) (N : Band (F64 R) B) (b0 : B) (hN : RightBand N b0 Number64 dims.prod) (k : Nat)
    (hk : dims.prod + pts.length ≤ k) :
    BDone N (bRun N cfg eikS k (bInit N cfg g b0 pts)) ∧
      ∀ i, i < dims.prod → RelClose (relErr dims.length cm (2 * cM * (K + 1))) (U i) ((bRun N cfg eikS k (bInit N cfg g b0 pts)).g.value i).1 := by
  have hin : Input dims g pts := ⟨I.X.fits, I.X.shape, I.X.inside⟩
  obtain ⟨m, s, hs, hg, hdone, hor⟩ := C57_FMM_refines_doubles K I hcc hK hfr ha hnd cfg hd hcfg N b0 hN k
  have hds : Done s := by
    by_contra hnot
    obtain ⟨s', h1⟩ := progress (F64.lt_laws R) cfg s hnot
    have := C13_FMM_linear cfg hd dims g pts hin (m + 1) s' (.tail (hs.mono (fun _ _ => StepMin.any)) h1.any)
    rcases hor with h2 | h2
    · exact hnot h2
    · omega
  refine ⟨hdone.2 hds, fun i hi => ?_⟩
  rw [hg]
  have hemp := C14_no_goal_ends_empty cfg dims g pts hin hgoal m s (hs.mono (fun _ _ => StepMin.any)) hds
  exact C59_FMM K I hcc hK hfr ha U hU cfg hcfg m s hs hemp i hi

/-- **C57/C59** for FMM as it is: `FMDaryHeap` or `FMFibHeap`, rounded doubles. -/
theorem C57_FMM_heaps_accurate_doubles (K : Nat) (I : DInput dims g h v pts cm cM (2 * cM * (K + 1))) (hcc : cm ≤ cM) (hK : Within dims g pts K) (hfr : Fresh g)
    (ha : StartsApart dims g pts) (hnd : pts.Nodup) (U : Nat → WithTop ℝ) (hU : I.X.problem.IsSolution U) (cfg : Cfg (F64 R)) (hd : cfg.dup = false)
    (hcfg : cfg.heur = .none) (hgoal : dims.prod ≤ cfg.goal) {b0 : DHeap} (E : DHeap.Emptied dims.prod b0) {f0 : FHeap} (E' : FHeap.Emptied dims.prod f0) (k : Nat)
    (hk : dims.prod + pts.length ≤ k) :
    (BDone DHeap.band (bRun DHeap.band cfg eikS k (bInit DHeap.band cfg g b0 pts)) ∧
      ∀ i, i < dims.prod → RelClose (relErr dims.length cm (2 * cM * (K + 1))) (U i) ((bRun DHeap.band cfg eikS k (bInit DHeap.band cfg g b0 pts)).g.value i).1) ∧
    (BDone FHeap.band (bRun FHeap.band cfg eikS k (bInit FHeap.band cfg g f0 pts)) ∧
      ∀ i, i < dims.prod → RelClose (relErr dims.length cm (2 * cM * (K + 1))) (U i) ((bRun FHeap.band cfg eikS k (bInit FHeap.band cfg g f0 pts)).g.value i).1) :=
  ⟨C57_FMM_accurate_doubles K I hcc hK hfr ha hnd U hU cfg hd hcfg hgoal DHeap.band b0 (C57_binary_heap_right F64.weakOrder dims.prod E) k hk,
    C57_FMM_accurate_doubles K I hcc hK hfr ha hnd U hU cfg hd hcfg hgoal FHeap.band f0 (C57_fib_heap_right F64.weakOrder dims.prod E') k hk⟩

/-- non-vacuity: an empty 3×3 map with rounding to nearest; the relative error is below 2·10⁻⁸ -/
example : ∃ (g : Grid (F64 Rounding.nearest)), ∃ I : DInput [3,3] g 1 (fun _ => 1) [4] 1 1 (2 * 1 * (((8:Nat) : ℝ) + 1)), Fresh g ∧ StartsApart [3,3] g [4] ∧
    Within [3,3] g [4] 8 ∧ relErr 2 1 (2 * 1 * (((8:Nat) : ℝ) + 1)) < 2 / 10^8 ∧ (∃ U, I.X.problem.IsSolution U) ∧ DHeap.Emptied [3,3].prod (DHeap.new 9) ∧
    FHeap.Emptied [3,3].prod (FHeap.new 9) ∧ (⟨false, .none, fun _ => Arith.zero, noGoal⟩ : Cfg (F64 Rounding.nearest)).goal ≥ [3,3].prod := by
  set g : Grid (F64 Rounding.nearest) := Grid.create [3,3] Arith.one (0,0) with hg
  have X : XInput [3,3] (gridX g) 1 (fun _ => 1) [4] :=
    ⟨⟨by decide, by decide, by decide⟩, by decide, rfl, by decide, one_pos, rfl, fun _ _ _ => rfl⟩
  have hap : StartsApart [3,3] g [4] := by
    intro i hi j hj _ hadj
    obtain ⟨k, h0, h1, h2, h3⟩ := hadj
    rw [List.mem_singleton] at hi hj
    subst hi; subst hj
    omega
  have e18 : (2:ℝ) * 1 * (((8:Nat) : ℝ) + 1) = 18 := by norm_num
  have I : DInput [3,3] g 1 (fun _ => 1) [4] 1 1 (2 * 1 * (((8:Nat) : ℝ) + 1)) := by
    have b1 : (2:ℝ)^(-200:ℤ) ≤ 1 := by
      have : (2:ℝ)^(-200:ℤ) ≤ (2:ℝ)^(0:ℤ) := zpow_le_zpow_right₀ (by norm_num) (by norm_num)
      simpa using this
    have b2 : (1:ℝ) ≤ (2:ℝ)^(200:ℤ) := by
      have : (2:ℝ)^(0:ℤ) ≤ (2:ℝ)^(200:ℤ) := zpow_le_zpow_right₀ (by norm_num) (by norm_num)
      simpa using this
    have b3 : (18:ℝ) ≤ (2:ℝ)^(300:ℤ) := by
      have : (2:ℝ)^(5:ℤ) ≤ (2:ℝ)^(300:ℤ) := zpow_le_zpow_right₀ (by norm_num) (by norm_num)
      refine le_trans ?_ this
      norm_num
    refine ⟨X, b1, b2, fun _ _ _ => b2, one_pos, fun _ _ _ => by norm_num, fun _ _ _ => by norm_num, ?_, ?_, ?_, ?_, ?_⟩
    · rw [e18]; norm_num
    · rw [e18]; norm_num
    · rw [e18]; exact b3
    · rw [e18]; unfold uu; norm_num
    · unfold XR.eps; norm_num
  obtain ⟨U, hU, _⟩ := C17_unique_solution X.problem X.wellPosed
  refine ⟨g, I, ⟨fun _ => rfl, fun _ => rfl, fun _ => rfl⟩, hap, DInput.within_cells X, ?_, ⟨U, hU⟩, DHeap.emptied_new 9, FHeap.emptied_new 9, by decide⟩
  unfold relErr; rw [e18]; norm_num

end FMV
