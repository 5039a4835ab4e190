import Verif.Props.Program
import Verif.Props.Benchmark
import Verif.Props.Metric
/-!
# C68, end to end: from the configuration file to the times in the saved grids
-/
namespace FMV.Program
open Arith Console CFG Spec Shape Life

/-- the exact solvers of this file: FMM (without heuristics) and FIM with its default threshold 0, as the configuration creates them -/
def ExactKind (k : Kind XR) : Prop := k = .fmm false .none ∨ k = .fim (XR.fin 0)

/-- What a new FMM or FIM computes on a new grid without goal is a final grid in the sense of C28 (`pop` releases minima). -/
theorem result_final {pop : FMM.St XR → Nat → Prop} (hpop : ∀ s x, pop s x → FMM.IsTop s x) (w : World XR) (hw : NewWorld w) (k : Nat) (hk : ExactKind (w.obj k).kind) {dims : List Nat}
    {pts : List Nat} (hin : Input dims w.grid pts) (hap : StartsApart dims w.grid pts) (hlt : dims.prod ≤ noGoal) (G : Grid XR)
    (hG : Result pop [.setEnvironment k, .setPoints k pts noGoal, .compute k] w G) : FinalGrid dims (w.grid.setClean false) pts G := by
  obtain ⟨n1, n2, -, -, -, n6, -, n8, -⟩ := new_facts (hw.objs k)
  have hcl : w.grid.clean = true := by rw [hw.grid]; rfl
  have hcg : w.grid.cleanGrid = w.grid := by unfold Grid.cleanGrid; rw [if_pos hcl]
  rw [result_first w _ _ _ _ n1, hcg] at hG
  obtain ⟨g1, o1, o', hs, hr⟩ := hG
  obtain ⟨_, rfl, rfl⟩ := setup_spec hs
  have hin' : Input dims (w.grid.setClean false) pts := ⟨hin.fits, hin.shape, hin.inside⟩
  rcases hk with hk | hk
  · have he : (w.obj k).setEnvironment w.grid = w.obj k := by unfold Obj.setEnvironment; rw [hk]
    rw [he] at hr
    obtain ⟨oo, e1, e2, e3, e4, e5⟩ := fmm_setup w.grid (o := (w.obj k).setPoints pts noGoal) hk
    rw [e1] at hr
    unfold Obj.runs at hr
    rw [e2] at hr
    obtain ⟨n, s, r1, r2, rfl, -⟩ := hr
    have e4' : oo.pts = pts := e4
    have e3' : oo.heap = [] := e3.trans n2
    rw [e4', e3'] at r1
    have hcfg : (oo.fmmCfg (w.grid.setClean false) false).heur = .none := by rw [e5]; rfl
    have hgoal : dims.prod ≤ (oo.fmmCfg (w.grid.setClean false) false).goal := by rw [e5]; exact hlt
    have r1' : FMM.Steps (FMM.StepMin (oo.fmmCfg (w.grid.setClean false) false)) n (FMM.init (oo.fmmCfg (w.grid.setClean false) false) (w.grid.setClean false) [] pts) s :=
      r1.mono (by rintro s s' ⟨h1, x, h2, h3, h4⟩; exact ⟨h1, x, hpop _ _ h3, h4⟩)
    have hheap := C14_no_goal_ends_empty _ dims _ pts hin' hgoal n s (r1'.mono fun _ _ h => h.any) r2
    exact .fmm hcfg hap r1' hheap
  · have he : (w.obj k).setEnvironment w.grid = w.obj k := by unfold Obj.setEnvironment; rw [hk]
    rw [he] at hr
    have e : ({ (w.obj k).setPoints pts noGoal with ready := true } : Obj XR).setupKind (w.grid.setClean false) = { (w.obj k).setPoints pts noGoal with ready := true } := by
      unfold Obj.setupKind; dsimp only [Obj.setPoints]; rw [hk]
    rw [e] at hr
    unfold Obj.runs at hr
    simp only [Obj.setPoints, hk] at hr
    obtain ⟨n, s, r1, r2, rfl, -⟩ := hr
    rw [n6] at r1
    exact .fim hlt hap r1 r2

/-- the world in which the benchmark starts is new -/
theorem world_new (E : Env XR) (dims : List Nat) (h : XR) (ms : List (Made XR)) (junk : Nat → Junk XR) :
    NewWorld (world ms { (newGrid E).resize dims with leaf := h } junk) :=
  ⟨rfl, fun k => ⟨_, _, rfl⟩⟩

/-- **C68, end to end** (exact arithmetic, empty maps, FMM and FIM lines): if a configuration describes a problem on an empty map without goal, with one saved grid per solver, then
running `fm_benchmark` with it calls `run`, and whenever that returns, the files are one per solver line, in order and named as the line says, and the time saved for every cell is its
straight-line distance `d` from the start, up to the discretisation error `(1 + 2√D)·h·log(1 + d/h)` and the accumulated comparison margins. -/
theorem _root_.FMV.C68_end_to_end_partial (E : Env XR) (f : CfgFile) (hcfg : E.cfg = some f) (argc : Nat) (ha : 2 ≤ argc) (dims : List Nat) (hf : Fits dims (2^31+1))
    (h2 : ∀ x ∈ dims, 2 ≤ x) (h : ℝ) (hh : 0 < h) (start : List Nat) (nr : Nat) (hnr : nr ≠ 0) (name : Str) (D : Describes E f dims (XR.fin h) start none nr 1 name)
    (hin : InBox dims start) (ms : List (Made XR)) (hl : (readSolvers f.unr).length = ms.length)
    (hr : ∀ i (h1 : i < (readSolvers f.unr).length) (h2 : i < ms.length), ∀ o, Round E.lex (readSolvers f.unr)[i].1 (readSolvers f.unr)[i].2 o ↔ o = .add ms[i])
    (hex : ∀ m ∈ ms, ExactKind m.kind) :
    ∃ (b : Bench) (g : Grid XR), (∀ o, Main E argc o ↔ o = .run b ms g) ∧
      ∀ (pop : FMM.St XR → Nat → Prop), (∀ s x, pop s x → FMM.IsTop s x) → ∀ (junk : Nat → Junk XR) (time : Nat → Str) (t' : Bench.St XR),
        Bench.Runs pop b time ⟨world ms g junk, 0, [], []⟩ t' →
        List.Forall₂ (fun (m : Made XR) (file : Str × Grid XR) => file.1 = m.name ∧
          ∀ i, i < dims.prod → ∃ t d : ℝ, file.2.value i = XR.fin t ∧ d = h * euclid ((Shape.mk' dims).idx2coord i) start ∧
            d ≤ t ∧ t ≤ d + (1 + 2 * Real.sqrt dims.length) * h * Real.log (1 + d / h) + dims.prod * (2 * XR.eps)) ms t'.files := by
  have hf32 : Fits dims (2^32) := hf.mono (by norm_num)
  have hg : makeGrid E (options E.stem f) dims.length = .ok ((newGrid E).resize dims) := by
    unfold makeGrid
    have e1 : options E.stem f "grid.file".toList = none := by unfold options; rw [D.file]; rfl
    have e2 : options E.stem f "grid.text".toList = none := by unfold options; rw [D.text]; rfl
    obtain ⟨s, hs, hn⟩ := D.size
    rw [e1, e2]
    dsimp only
    rw [text_of hs rfl, numbers_cast hn]
  refine ⟨_, _, main_run E f hcfg argc ha D.toSettings hin.1 (fun c hc => by cases hc) ms hl hr _ hg, ?_⟩
  intro pop hpop junk time t' hrun
  obtain ⟨c1, c2, c3⟩ := C01_coord_roundtrip dims hf32 start hin
  rw [mk'_ncells hf32] at c1
  have es : ((newGrid E).resize dims).shape = Shape.mk' dims := rfl
  rw [es] at hrun
  generalize hp : (Shape.mk' dims).coord2idx start = p at hrun c1 c2 c3
  have hW := world_new E dims (XR.fin h) ms junk
  have hkind : ∀ k, k < ms.length → ∃ m, ms[k]? = some m ∧ ((world ms { (newGrid E).resize dims with leaf := XR.fin h } junk).obj k).kind = m.kind := by
    intro k hk
    refine ⟨ms[k], List.getElem?_eq_getElem hk, ?_⟩
    show (ms.map Made.kind).getD k .ddqm = _
    simp [List.getD, hk]
  have hsol : ∀ s ∈ (List.range ms.length).zip (ms.map Made.name), s.1 < ms.length := by
    intro s hs
    have := List.of_mem_zip (a := s.1) (b := s.2) hs
    simpa using this.1
  have hkx : ∀ s ∈ (List.range ms.length).zip (ms.map Made.name), ExactKind ((world ms { (newGrid E).resize dims with leaf := XR.fin h } junk).obj s.1).kind := by
    intro s hs
    obtain ⟨m, h1, h3⟩ := hkind s.1 (hsol s hs)
    rw [h3]
    exact hex m (List.mem_of_getElem? h1)
  have A : Bench.Apart ⟨(List.range ms.length).zip (ms.map Made.name), [p], (none : Option (List Nat)).elim noGoal (Shape.mk' dims).coord2idx, nr, 1, name⟩
      (world ms { (newGrid E).resize dims with leaf := XR.fin h } junk) := by
    refine ⟨?_, ?_, ?_⟩
    · rintro s hs ⟨m, hm⟩
      rcases hkx s hs with e | e <;> (rw [e] at hm; cases hm)
    · intro s hs hm
      rcases hkx s hs with e | e <;> (rw [e] at hm; cases hm)
    · rintro s hs ⟨d, hd, hm, hn⟩
      rcases hkx s hs with e | e
      · rw [e] at hm; injection hm with _ hm; exact absurd hm.symm hn
      · rw [e] at hm; cases hm
  have hfiles := C45_last_results_partial hW A rfl hnr _ t' rfl rfl hrun
  have hocc : ∀ (g : Grid XR), SameMap { (newGrid E).resize dims with leaf := XR.fin h } g → ∀ i, (freshGrid g).occ i = false ∧ (freshGrid g).vel i = XR.fin 1 := by
    intro g hm i
    have : (g.cells i).occupancy = XR.fin 1 := by rw [hm.occupancy]; rfl
    constructor
    · show Arith.lt (g.cells i).occupancy (margin : XR) = false
      rw [this]
      show decide ((1:ℝ) < XR.eps) = false
      exact decide_eq_false (by unfold XR.eps; norm_num)
    · exact this
  have hlen : dims.prod ≤ noGoal := by
    have := hf.lt
    show dims.prod ≤ 2^32 - 1
    omega
  have key : ∀ s ∈ (List.range ms.length).zip (ms.map Made.name), ∀ G, Bench.Fresh pop
      ⟨(List.range ms.length).zip (ms.map Made.name), [p], (none : Option (List Nat)).elim noGoal (Shape.mk' dims).coord2idx, nr, 1, name⟩
      (world ms { (newGrid E).resize dims with leaf := XR.fin h } junk) s.1 G → ∀ i, i < dims.prod → ∃ t d : ℝ, G.value i = XR.fin t ∧
        d = h * euclid ((Shape.mk' dims).idx2coord i) start ∧
        d ≤ t ∧ t ≤ d + (1 + 2 * Real.sqrt dims.length) * h * Real.log (1 + d / h) + dims.prod * (2 * XR.eps) := by
    rintro s hs G ⟨g, hm, hG⟩ i hi
    have hX : XInput dims ((freshGrid g).setClean false) h (fun _ => 1) [p] :=
      ⟨hf, h2, hm.shape, by intro i hi; rw [List.mem_singleton.1 hi]; exact c1, hh, hm.leaf, fun i _ _ => (hocc g hm i).2⟩
    have hfr : FMV.Fresh ((freshGrid g).setClean false) := fresh_Fresh g
    have hfin := result_final hpop ⟨freshGrid g, (world ms { (newGrid E).resize dims with leaf := XR.fin h } junk).obj⟩ ⟨rfl, fun k => ⟨_, _, rfl⟩⟩ s.1 (hkx s hs)
      (dims := dims) (pts := [p]) ⟨hf, hm.shape, by intro i hi; rw [List.mem_singleton.1 hi]; exact c1⟩ (by
        intro i hi j hj _ hadj
        rw [List.mem_singleton.1 hi, List.mem_singleton.1 hj] at hadj
        obtain ⟨k, _, _, h3, _⟩ := hadj
        omega) hlen G hG
    obtain ⟨t, e1, e2, e3⟩ := C66_open_map hX hfr 1 (fun i _ => ⟨(hocc g hm i).1, rfl⟩) G hfin i hi _ rfl
    refine ⟨t, _, e1, rfl, ?_, ?_⟩
    · rw [c3] at e2; simpa using e2
    · rw [c3] at e3; simpa using e3
  have conv : ∀ (l : List (Nat × Str)) (fs : List (Str × Grid XR)), (∀ s ∈ l, s ∈ (List.range ms.length).zip (ms.map Made.name)) →
      List.Forall₂ (fun (s : Nat × Str) (f : Str × Grid XR) => f.1 = s.2 ∧ Bench.Fresh pop
      ⟨(List.range ms.length).zip (ms.map Made.name), [p], (none : Option (List Nat)).elim noGoal (Shape.mk' dims).coord2idx, nr, 1, name⟩
      (world ms { (newGrid E).resize dims with leaf := XR.fin h } junk) s.1 f.2) l fs →
      List.Forall₂ (fun (n : Str) (file : Str × Grid XR) => file.1 = n ∧
          ∀ i, i < dims.prod → ∃ t d : ℝ, file.2.value i = XR.fin t ∧ d = h * euclid ((Shape.mk' dims).idx2coord i) start ∧
            d ≤ t ∧ t ≤ d + (1 + 2 * Real.sqrt dims.length) * h * Real.log (1 + d / h) + dims.prod * (2 * XR.eps)) (l.map Prod.snd) fs := by
    intro l fs hsub hfa
    induction hfa with
    | nil => exact .nil
    | cons h1 _ ih => exact .cons ⟨h1.1, key _ (hsub _ (by simp)) _ h1.2⟩ (ih fun s hs => hsub s (by simp [hs]))
  have := conv _ _ (fun s hs => hs) hfiles
  rw [List.map_snd_zip (by simp), List.forall₂_map_left_iff] at this
  exact this

/-- a configuration: a map of 4 × 3 cells, from (1,2), no goal, grids saved once per solver, an FMM and a FIM -/
def exCfg2 : CfgFile :=
  { set := fun k => if k = "grid.dimsize".toList then some "4,3".toList else if k = "problem.start".toList then some "1,2".toList
      else if k = "benchmark.savegrid".toList then some "1".toList else none
    unr := [("solvers.fmm".toList, []), ("solvers.fim".toList, [])] }

/-- non-vacuity: the hypotheses of `C68_end_to_end_partial` -/
example : Describes { exEnv with cfg := some exCfg2 } exCfg2 [4,3] (XR.fin 1) [1,2] none 10 1 "my".toList ∧ InBox [4,3] [1,2] ∧ Fits [4,3] (2^31+1) ∧
    (∀ m ∈ [(⟨.fmm false .none, .dary, "FMM".toList⟩ : Made XR), ⟨.fim (XR.fin 0), .dary, "FIM".toList⟩], ExactKind m.kind) ∧
    readSolvers exCfg2.unr = [("fmm".toList, []), ("fim".toList, [])] := by
  refine ⟨⟨⟨Or.inr ⟨by decide, rfl⟩, ⟨_, Or.inr ⟨by decide, rfl⟩, by decide⟩, Or.inl rfl, ⟨_, Or.inr ⟨by decide, rfl⟩, ?_⟩, ⟨"1,2".toList, by decide, ⟨["1".toList, "2".toList],
      ⟨by decide, by decide, by decide⟩, by decide⟩⟩, ⟨_, Or.inr ⟨by decide, rfl⟩, rfl⟩,
      ⟨_, Or.inr ⟨by decide, rfl⟩, by decide⟩, ⟨"1".toList, Or.inl (by decide), by decide⟩, Or.inr ⟨by decide, rfl⟩⟩,
      by decide, by decide, ⟨"4,3".toList, Or.inl (by decide), ⟨["4".toList, "3".toList], ⟨by decide, by decide, by decide⟩, by decide⟩⟩⟩,
    ⟨rfl, by decide⟩, ⟨by decide, by decide, by decide⟩, ?_, by decide +kernel⟩
  · show (exUns "1".toList).map (fun n => XR.fin n) = some (XR.fin 1)
    have : exUns "1".toList = some 1 := by decide
    rw [this]
    simp
  · intro m hm
    rcases List.mem_cons.1 hm with rfl | hm
    · exact Or.inl rfl
    · rw [List.mem_singleton.1 hm]; exact Or.inr rfl

end FMV.Program
