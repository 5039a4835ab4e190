import Verif.Props.Heuristic
import Verif.Lemmas.FMMLink
/-
C41: the heuristic values that a run of FMM* or SFMM* stores in the cells and adds to the arrival times in the queue.
-/
set_option linter.unusedSectionVars false
namespace FMV
open Spec Arith
variable {F : Type} [Arith F]
namespace FMM

/-- the heuristic value of cell `i`: nothing, distance over speed, or distance -/
def heurOf (cfg : Cfg F) (g : Grid F) (i : Nat) : F :=
  match cfg.heur with
  | .none => zero
  | .time => div (cfg.hdist i) (g.vel i)
  | .distance => cfg.hdist i

theorem hValue_setValue (g : Grid F) (i k : Nat) (v : F) : ((g.setValue i v).cells k).hValue = (g.cells k).hValue := by
  unfold Grid.setValue; rw [Grid.modify_cells]; split
  · subst_vars; rfl
  · rfl
theorem hValue_setState (g : Grid F) (i k : Nat) (v : FMState) : ((g.setState i v).cells k).hValue = (g.cells k).hValue := by
  unfold Grid.setState; rw [Grid.modify_cells]; split
  · subst_vars; rfl
  · rfl
theorem hValue_setH (g : Grid F) (i : Nat) (v : F) : ((g.setH i v).cells i).hValue = v := by
  unfold Grid.setH; rw [Grid.modify_cells, if_pos rfl]

theorem hValue_applyHeur (cfg : Cfg F) (g0 g : Grid F) (hm : SameMap g0 g) (i : Nat) (h0 : cfg.heur = .none → (g.cells i).hValue = zero) :
    ((applyHeur cfg g i).cells i).hValue = heurOf cfg g0 i := by
  unfold applyHeur heurOf
  cases h : cfg.heur with
  | none => exact h0 h
  | time => simp only [hValue_setH]; unfold Grid.vel; rw [hm.occupancy]
  | distance => simp only [hValue_setH]

structure HInv (cfg : Cfg F) (g0 : Grid F) (pts : List Nat) (s : St F) : Prop where
  same : SameMap g0 s.g
  lab : ∀ i, (i ∈ pts ∨ s.g.state i ≠ .opn) → (s.g.cells i).hValue = heurOf cfg g0 i
  unl : ∀ i, i ∉ pts → s.g.state i = .opn → (s.g.cells i).hValue = zero
  hp : ∀ y ∈ s.heap, y ∈ pts ∨ s.g.state y ≠ .opn

theorem HInv.noheur (cfg : Cfg F) {g0 : Grid F} {pts : List Nat} {s : St F} (I : HInv cfg g0 pts s) (hn : cfg.heur = .none) (i : Nat) :
    (s.g.cells i).hValue = Arith.zero := by
  by_cases h : i ∈ pts ∨ s.g.state i ≠ .opn
  · rw [I.lab i h]; unfold heurOf; rw [hn]
  · push Not at h; exact I.unl i h.1 h.2

theorem HInv.relax {cfg : Cfg F} {g0 : Grid F} {pts : List Nat} {s : St F} (I : HInv cfg g0 pts s) (eik : Eik F) (j : Nat) :
    HInv cfg g0 pts (relax cfg eik s j) := by
  have hsm := I.same.trans (relax_sameMap cfg eik s j)
  have hst := relax_state cfg eik s j
  have hj : ((applyHeur cfg (s.g.setScratch (eik s.g j).2) j).cells j).hValue = heurOf cfg g0 j := by
    refine hValue_applyHeur cfg g0 _ (I.same.trans (sameMap_setScratch _ _)) j (fun hn => ?_)
    rw [Grid.setScratch_cells]; exact I.noheur cfg hn j
  rcases relax_cases cfg eik s j with ⟨h, e⟩ | ⟨ho, hn, _, e⟩ | ⟨ho, hn, _, e⟩ | ⟨ho, hn, e⟩
  · rw [e]; exact I
  all_goals
    have hval : ((FMM.relax cfg eik s j).g.cells j).hValue = heurOf cfg g0 j := by
      rw [e]; simpa only [hValue_setValue, hValue_setState] using hj
    have hnj : (FMM.relax cfg eik s j).g.state j ≠ .opn := by
      rw [hst]; simp [hn, ho]
    have hmono : ∀ k, s.g.state k ≠ .opn → (FMM.relax cfg eik s j).g.state k ≠ .opn := by
      intro k hk; rw [hst]; split
      · decide
      · exact hk
    refine ⟨hsm, ?_, ?_, ?_⟩
    · intro i hi
      by_cases hij : i = j
      · subst hij; exact hval
      · rw [relax_cells_ne hij]
        refine I.lab i (hi.imp_right fun h => ?_)
        rwa [hst, if_neg (fun h => hij h.1)] at h
    · intro i hi hio
      by_cases hij : i = j
      · subst hij; exact absurd hio hnj
      · rw [relax_cells_ne hij]
        refine I.unl i hi ?_
        rwa [hst, if_neg (fun h => hij h.1)] at hio
    · intro y hy
      rcases relax_heap_mem hy with h | ⟨rfl, _⟩
      · exact (I.hp y h).imp_right (hmono y)
      · exact Or.inr hnj

theorem HInv.step {cfg : Cfg F} {g0 : Grid F} {pts : List Nat} {s t : St F} (I : HInv cfg g0 pts s) (hst : StepAny cfg s t) :
    HInv cfg g0 pts t := by
  obtain ⟨_, eik, x, hx, rfl⟩ := hst
  refine expand_inv cfg eik s x (fun t b h => ⟨h.same, h.lab, h.unl, h.hp⟩) ?_ (fun t j _ h => h.relax eik j)
  have hs : ∀ k, (popped s x).g.state k = if k = x then .frozen else s.g.state k := fun k => by
    simp [popped, Grid.state_setState]
  have hmono : ∀ k, s.g.state k ≠ .opn → (popped s x).g.state k ≠ .opn := by
    intro k hk; rw [hs]; split
    · decide
    · exact hk
  refine ⟨I.same.trans (popped_sameMap s x), ?_, ?_, ?_⟩
  · intro i hi
    show ((s.g.setState x .frozen).cells i).hValue = _
    rw [hValue_setState]
    rcases hi with hi | hi
    · exact I.lab i (.inl hi)
    · rw [hs] at hi
      by_cases hix : i = x
      · subst hix; exact I.lab i (I.hp i hx)
      · rw [if_neg hix] at hi; exact I.lab i (.inr hi)
  · intro i hi hio
    show ((s.g.setState x .frozen).cells i).hValue = _
    rw [hValue_setState]
    rw [hs] at hio
    by_cases hix : i = x
    · rw [if_pos hix] at hio; cases hio
    · rw [if_neg hix] at hio; exact I.unl i hi hio
  · intro y hy
    exact (I.hp y (List.mem_of_mem_erase hy)).imp_right (hmono y)

theorem HInv.start (cfg : Cfg F) {g0 : Grid F} (hfr : Fresh g0) (pts : List Nat) : HInv cfg g0 pts (init cfg g0 [] pts) := by
  have key : ∀ i, (((init cfg g0 [] pts).g.cells i).hValue = if i ∈ pts then heurOf cfg g0 i else zero) := by
    intro i
    have : ∀ (l : List Nat) (s : St F), SameMap g0 s.g → (cfg.heur = .none → ∀ k, (s.g.cells k).hValue = zero) →
        ((l.foldl (initPoint cfg) s).g.cells i).hValue = if i ∈ l then heurOf cfg g0 i else (s.g.cells i).hValue := by
      intro l
      induction l with
      | nil => intro s _ _; simp
      | cons a l ih =>
        intro s hsm hz
        rw [List.foldl_cons]
        have hz' : cfg.heur = .none → ∀ k, ((initPoint cfg s a).g.cells k).hValue = zero := by
          intro hn k
          show ((applyHeur cfg (s.g.setValue a zero) a).cells k).hValue = _
          unfold applyHeur; rw [hn]; dsimp only; rw [hValue_setValue]; exact hz hn k
        rw [ih _ (hsm.trans (initPoint_sameMap cfg s a)) hz']
        by_cases hil : i ∈ l
        · simp [hil]
        · by_cases hia : i = a
          · subst hia
            simp only [hil, if_false, List.mem_cons, true_or, if_true]
            exact hValue_applyHeur cfg g0 _ (hsm.trans (sameMap_setValue _ _ _)) i (fun hn => by rw [hValue_setValue]; exact hz hn i)
          · simp only [hil, if_false, List.mem_cons, hia, or_self]
            show ((applyHeur cfg (s.g.setValue a zero) a).cells i).hValue = _
            rw [applyHeur_cells_ne _ _ hia, hValue_setValue]
    unfold init
    rw [this pts _ (SameMap.refl _) (fun _ k => hfr.hValue k)]
    simp [hfr.hValue]
  refine ⟨init_sameMap _ _ _ _, ?_, ?_, ?_⟩
  · intro i hi
    rw [init_state, hfr.state] at hi
    rw [key, if_pos (by simpa using hi)]
  · intro i hi _
    rw [key, if_neg hi]
  · intro y hy
    rw [init_heap] at hy
    exact Or.inl (by simpa using hy)

/-- **C41** in a run: at any moment of any FMM, FMM*, SFMM or SFMM* run on a fresh grid, an initial point or a cell that is not OPEN carries
exactly its heuristic value - 0 without a heuristic, the distance to the goal divided by the cell's speed for TIME, the distance itself for
DISTANCE - and every other cell carries 0. -/
theorem _root_.FMV.C41_heuristic_in_run (cfg : Cfg F) {g : Grid F} (hfr : Fresh g) (pts : List Nat) (n : Nat) (s : St F)
    (hs : Steps (StepAny cfg) n (init cfg g [] pts) s) (i : Nat) :
    ((i ∈ pts ∨ s.g.state i ≠ .opn) →
      (cfg.heur = .none → (s.g.cells i).hValue = zero) ∧
      (cfg.heur = .time → (s.g.cells i).hValue = div (cfg.hdist i) (g.vel i)) ∧
      (cfg.heur = .distance → (s.g.cells i).hValue = cfg.hdist i)) ∧
    (i ∉ pts → s.g.state i = .opn → (s.g.cells i).hValue = zero) := by
  have I := Steps.inv (I := HInv cfg g pts) (fun s t h ht => h.step ht) hs (HInv.start cfg hfr pts)
  refine ⟨fun hi => ?_, I.unl i⟩
  have := I.lab i hi
  unfold heurOf at this
  refine ⟨fun h => ?_, fun h => ?_, fun h => ?_⟩ <;> rw [h] at this <;> exact this

/-- **C41** for the library's table: in exact arithmetic, when the distances are those of `precomputeDistances`, every initial point and every
labelled cell carries the Euclidean distance in cells to the goal (divided by its speed for TIME). -/
theorem _root_.FMV.C41_heuristic_value {dims : List Nat} (h : Shape.Fits dims (2^32)) (hd : ∀ n ∈ dims, n ≤ 65536) {goal : Nat} (hgoal : goal < dims.prod)
    (old : Nat → XR) (cfg : Cfg XR)
    (hdist : cfg.hdist = getPrecomputedDistance (Shape.mk' dims) (precomputeDistances (Shape.mk' dims) old) ((Shape.mk' dims).idx2coord goal))
    {g : Grid XR} (hfr : Fresh g) (pts : List Nat) (n : Nat) (s : St XR)
    (hs : Steps (StepAny cfg) n (init cfg g [] pts) s) (i : Nat) (hi : i < dims.prod) (hl : i ∈ pts ∨ s.g.state i ≠ .opn) :
    (cfg.heur = .distance → (s.g.cells i).hValue = XR.fin (euclid ((Shape.mk' dims).idx2coord i) ((Shape.mk' dims).idx2coord goal))) ∧
    (∀ v : ℝ, cfg.heur = .time → v ≠ 0 → g.vel i = XR.fin v →
      (s.g.cells i).hValue = XR.fin (euclid ((Shape.mk' dims).idx2coord i) ((Shape.mk' dims).idx2coord goal) / v)) := by
  have h1 := (C41_heuristic_in_run cfg hfr pts n s hs i).1 hl
  have h2 : cfg.hdist i = XR.fin (euclid ((Shape.mk' dims).idx2coord i) ((Shape.mk' dims).idx2coord goal)) := by
    rw [hdist]; exact C41_heuristic_is_euclidean h hd hi hgoal old
  refine ⟨fun hh => by rw [h1.2.2 hh, h2], fun v hh hv hvel => ?_⟩
  rw [h1.2.1 hh, h2, hvel]
  show XR.div (XR.fin _) (XR.fin _) = _
  simp [XR.div, hv]

/-- non-vacuity: FMM* with the distance heuristic on an empty 5 x 4 grid: the start has heuristic value 5 before the first step -/
example : ∃ (g : Grid XR) (cfg : Cfg XR) (s : St XR), Fresh g ∧ cfg.heur = .distance ∧ Steps (StepAny cfg) 1 (init cfg g [] [19]) s ∧
    s.g.state 18 = .narrow := by
  refine ⟨Grid.create [5,4] (XR.fin 1) (0,0), ⟨false, .distance, fun _ => XR.fin 0, 0⟩, _, ⟨fun _ => rfl, fun _ => rfl, fun _ => rfl⟩, rfl,
    .tail (.refl _) ⟨?_, fun g _ => (XR.fin 1, (0,0)), 19, ?_, rfl⟩, ?_⟩
  · rintro (h | h)
    · rw [init_stop] at h; cases h
    · rw [init_heap] at h; simp at h
  · rw [init_heap]; simp
  · rw [expand_g]
    have e : (init (⟨false, .distance, fun _ => XR.fin 0, 0⟩ : Cfg XR) (Grid.create [5,4] (XR.fin 1) (0,0)) [] [19]).g.shape.nbrs 19 = [18, 14] := by
      rfl
    rw [e]
    simp only [List.foldl_cons, List.foldl_nil]
    rw [relax_state, if_neg (by rintro ⟨h, _⟩; cases h), relax_state, if_pos]
    refine ⟨rfl, ?_, ?_⟩
    · show ((init _ _ _ _).g.setState 19 .frozen).state 18 = .opn
      rw [Grid.state_setState, if_neg (by decide), init_state]; rfl
    · show (Cell.isOccupied _) = false
      show XR.lt (XR.fin 1) (XR.fin _) = false
      simp [XR.lt]; unfold XR.eps; norm_num

end FMM
end FMV
