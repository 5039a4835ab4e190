import Verif.Props.PathArrives
import Verif.Props.GMMAccuracy
import Verif.Props.GoalWrong
/-!
# C79: extracting a path does not always succeed
-/
set_option linter.unusedSectionVars false
set_option linter.unusedVariables false
namespace FMV
open Spec Shape XR FMM
variable {dims : List Nat} {g : Grid XR}

namespace GD

theorem not_done {s : St XR} {r : XR} (h : g.value s.idx = r) (hg : GoodT r) (h0 : r ≠ fin 0) : ¬ Done g s := by
  unfold Done
  rw [h]
  intro hd
  rcases hg with e | ⟨x, _, e⟩
  · rw [e] at hd; cases hd
  · rw [e] at hd h0
    apply h0
    have : x = 0 := by
      change XR.eq (fin x) (fin 0) = true at hd
      simpa [XR.eq] using hd
    rw [this]

/-- the centre of a cell as the list the loop keeps -/
theorem centre_range (hf : Fits dims (2^31+1)) {c : Nat} (hc : c < dims.prod) :
    (centre dims c).map fin = ((List.range dims.length).map (fun i => (coordN dims c i : ℝ))).map fin := by
  congr 1
  unfold centre coordN
  have hl : ((Shape.mk' dims).idx2coord c).length = dims.length := by
    rw [idx2coord_eq (hf.mono (by norm_num)) hc]; simp
  apply List.ext_getElem
  · simp [hl]
  · intro i h1 h2
    have : i < ((Shape.mk' dims).idx2coord c).length := by simpa using h1
    simp only [List.getElem_map, List.getElem_range, List.getD_eq_getElem _ _ this]

theorem coords_list (hf : Fits dims (2^31+1)) {c : Nat} (hc : c < dims.prod) : (List.range dims.length).map (fun i => coordN dims c i) = (Shape.mk' dims).idx2coord c := by
  have hl : ((Shape.mk' dims).idx2coord c).length = dims.length := by
    rw [idx2coord_eq (hf.mono (by norm_num)) hc]; simp
  unfold coordN
  apply List.ext_getElem
  · simp [hl]
  · intro i h1 h2
    simp only [List.getElem_map, List.getElem_range, List.getD_eq_getElem _ _ h2]

/-- one iteration with step 1 from the centre of a cell where only the slope in dimension `k` is not zero ends in the centre of the next cell -/
theorem next_axis (hf : Fits dims (2^31+1)) (hs : g.shape = Shape.mk' dims) {A B k : Nat} (hA : Inner dims 1 A) (hB : B < dims.prod) (hk : k < dims.length) {x : ℝ} (hx : x ≠ 0)
    (hsk : IsSlope (g.value (A - strideProd dims k)) (g.value (A + strideProd dims k)) x)
    (hso : ∀ i, i < dims.length → i ≠ k → IsSlope (g.value (A - strideProd dims i)) (g.value (A + strideProd dims i)) 0)
    (hcB : ∀ i, i < dims.length → (coordN dims B i : ℝ) = coordN dims A i - if i = k then x / |x| else 0)
    {s : St XR} (hi : s.idx = A) (hp : s.point = (centre dims A).map fin) :
    ∃ s', next g (fin 1) s = some s' ∧ s'.idx = B ∧ s'.point = (centre dims B).map fin := by
  have hx' : 0 < |x| := abs_pos.2 hx
  have hpt : (List.range dims.length).map (fun i => (coordN dims A i : ℝ) - 1 * (if i = k then x else 0) / |x|) = (List.range dims.length).map (fun i => (coordN dims B i : ℝ)) := by
    apply List.map_congr_left
    intro i hi
    rw [hcB i (List.mem_range.1 hi)]
    split <;> simp
  have := next_of hf hs (δ := 1) (s := s) (fun i => (coordN dims A i : ℝ)) (by rw [hp]; exact centre_range hf hA.1)
    (fun i hi' => by rw [hi]; exact (C35_reads_neighbours hf hA.1 hi' (hA.2 i hi').1 (hA.2 i hi').2).1)
    (fun i hi' => by rw [hi]; exact (C35_reads_neighbours hf hA.1 hi' (hA.2 i hi').1 (hA.2 i hi').2).2.1)
    (fun i => if i = k then x else 0)
    (fun i hi' => by
      rw [hi]
      by_cases h : i = k
      · subst h; rw [if_pos rfl]; exact hsk
      · rw [if_neg h]; exact hso i hi' h)
    |x| hx' (fun i _ => by split <;> simp) ⟨k, hk, by rw [if_pos rfl]⟩ (fun i => coordN dims B i)
    (fun i hi' => by
      exact (C01_idx_roundtrip dims (hf.mono (by norm_num)) B (by rw [mk'_ncells (hf.mono (by norm_num))]; exact hB)).1.2 i hi')
    (fun i hi' => by
      have e := hcB i hi'
      have e' : (coordN dims A i : ℝ) - 1 * (if i = k then x else 0) / |x| = coordN dims B i := by rw [e]; split <;> simp
      rw [e']
      constructor <;> linarith)
  refine ⟨_, this, ?_, ?_⟩
  · dsimp only
    rw [coords_list hf hB]
    exact (C01_idx_roundtrip dims (hf.mono (by norm_num)) B (by rw [mk'_ncells (hf.mono (by norm_num))]; exact hB)).2
  · dsimp only
    rw [hpt, centre_range hf hB]

/-- **C79, refuted: an endless loop.**  Two neighbouring cells `A` and `B`, not on the border, such that seen along their common axis each is lower than what lies behind the
other, and in all other directions the times are symmetric.  Gradient descent with the default step 1 from `A` goes to and fro between them for ever: after every number of
iterations it is still running, and it never returns. -/
theorem _root_.FMV.C79_refuted_loop (hf : Fits dims (2^31+1)) (hs : g.shape = Shape.mk' dims) {A k : Nat} (hk : k < dims.length) (hA : Inner dims 1 A)
    (hB : Inner dims 1 (A + strideProd dims k)) {a b : ℝ} (ha : g.value A = fin a) (hb : g.value (A + strideProd dims k) = fin b) (ha0 : a ≠ 0) (hb0 : b ≠ 0)
    (hbehindA : g.value (A - strideProd dims k) = pinf ∨ ∃ x, g.value (A - strideProd dims k) = fin x ∧ b < x)
    (hbehindB : g.value (A + strideProd dims k + strideProd dims k) = pinf ∨ ∃ x, g.value (A + strideProd dims k + strideProd dims k) = fin x ∧ a < x)
    (hsymA : ∀ i, i < dims.length → i ≠ k → ∃ x, g.value (A - strideProd dims i) = fin x ∧ g.value (A + strideProd dims i) = fin x)
    (hsymB : ∀ i, i < dims.length → i ≠ k → ∃ x, g.value (A + strideProd dims k - strideProd dims i) = fin x ∧ g.value (A + strideProd dims k + strideProd dims i) = fin x) :
    ∃ s0, init g A = some s0 ∧ (∀ n, ∃ s, Steps (Step g (fin 1)) n s0 s ∧ ¬ Done g s) ∧ ¬ ∃ path vels idx', Runs g A (fin 1) path vels idx' := by
  have hnc : g.shape.ncells = dims.prod := by rw [hs]; exact mk'_ncells (hf.mono (by norm_num))
  obtain ⟨n1, n2, n3⟩ := C35_reads_neighbours hf hA.1 hk (hA.2 k hk).1 (hA.2 k hk).2
  generalize hBe : A + strideProd dims k = B at *
  have hcB : ∀ i, i < dims.length → (coordN dims B i : ℝ) = coordN dims A i + if i = k then 1 else 0 := fun i hi => by
    have := (n3 i hi).1
    change coordN dims B i = coordN dims A i + _ at this
    rw [this]; push_cast; split <;> simp
  have hBA : B - strideProd dims k = A := by omega
  have symS : ∀ {u w : XR}, (∃ x, u = fin x ∧ w = fin x) → IsSlope u w 0 := by
    rintro u w ⟨x, h1, h2⟩
    exact .inl ⟨x, x, h1, h2, by ring⟩
  have stepA : ∀ s : St XR, s.idx = A → s.point = (centre dims A).map fin → ∃ s', next g (fin 1) s = some s' ∧ s'.idx = B ∧ s'.point = (centre dims B).map fin := by
    obtain ⟨x, hx, hsl⟩ : ∃ x : ℝ, x < 0 ∧ IsSlope (g.value (A - strideProd dims k)) (g.value (A + strideProd dims k)) x := by
      rw [hBe, hb]
      rcases hbehindA with e | ⟨x, e, hlt⟩
      · exact ⟨-1, by norm_num, .inr (.inr ⟨b, e, rfl, rfl⟩)⟩
      · exact ⟨(b - x)/2, by linarith, .inl ⟨x, b, e, rfl, rfl⟩⟩
    intro s hi hp
    refine next_axis hf hs hA n2 hk hx.ne hsl (fun i hi h => symS (hsymA i hi h)) (fun i hi => ?_) hi hp
    rw [hcB i hi, abs_of_neg hx, div_neg, div_self hx.ne]
    split <;> ring
  have stepB : ∀ s : St XR, s.idx = B → s.point = (centre dims B).map fin → ∃ s', next g (fin 1) s = some s' ∧ s'.idx = A ∧ s'.point = (centre dims A).map fin := by
    obtain ⟨x, hx, hsl⟩ : ∃ x : ℝ, 0 < x ∧ IsSlope (g.value (B - strideProd dims k)) (g.value (B + strideProd dims k)) x := by
      rw [hBA, ha]
      rcases hbehindB with e | ⟨x, e, hlt⟩
      · exact ⟨1, by norm_num, .inr (.inl ⟨a, rfl, e, rfl⟩)⟩
      · exact ⟨(x - a)/2, by linarith, .inl ⟨a, x, rfl, e, rfl⟩⟩
    intro s hi hp
    refine next_axis hf hs hB hA.1 hk hx.ne' hsl (fun i hi h => symS (hsymB i hi h)) (fun i hi => ?_) hi hp
    rw [hcB i hi, abs_of_pos hx, div_self hx.ne']
    split <;> ring
  have ndA : ∀ s : St XR, s.idx = A → ¬ Done g s := fun s hi hd => by
    unfold Done at hd
    rw [hi, ha] at hd
    change XR.eq (fin a) (fin 0) = true at hd
    exact ha0 (by simpa [XR.eq] using hd)
  have ndB : ∀ s : St XR, s.idx = B → ¬ Done g s := fun s hi hd => by
    unfold Done at hd
    rw [hi, hb] at hd
    change XR.eq (fin b) (fin 0) = true at hd
    exact hb0 (by simpa [XR.eq] using hd)
  let J : St XR → Prop := fun s => (s.idx = A ∧ s.point = (centre dims A).map fin) ∨ (s.idx = B ∧ s.point = (centre dims B).map fin)
  have nd : ∀ s, J s → ¬ Done g s := by
    rintro s (⟨h, _⟩ | ⟨h, _⟩)
    · exact ndA s h
    · exact ndB s h
  have stp : ∀ s, J s → ∃ s', next g (fin 1) s = some s' ∧ J s' := by
    rintro s (⟨h, h'⟩ | ⟨h, h'⟩)
    · obtain ⟨s', e1, e2⟩ := stepA s h h'
      exact ⟨s', e1, .inr e2⟩
    · obtain ⟨s', e1, e2⟩ := stepB s h h'
      exact ⟨s', e1, .inl e2⟩
  have hinit : init g A = some ⟨A, toPoint (g.shape.idx2coord A), [toPoint (g.shape.idx2coord A)], [g.vel A]⟩ := by
    unfold init; rw [hnc, if_pos hA.1]
  have J0 : J ⟨A, toPoint (g.shape.idx2coord A), [toPoint (g.shape.idx2coord A)], [g.vel A]⟩ := .inl ⟨rfl, by dsimp only; rw [hs, toPoint_eq]⟩
  have all : ∀ n s, Steps (Step g (fin 1)) n ⟨A, toPoint (g.shape.idx2coord A), [toPoint (g.shape.idx2coord A)], [g.vel A]⟩ s → J s := by
    intro n s h
    refine Steps.inv (I := J) ?_ h J0
    rintro s t h ⟨_, ht⟩
    obtain ⟨s', e1, e2⟩ := stp s h
    rw [e1] at ht
    injection ht with ht
    rw [← ht]; exact e2
  refine ⟨_, hinit, fun n => ?_, ?_⟩
  · have : ∃ s, Steps (Step g (fin 1)) n ⟨A, toPoint (g.shape.idx2coord A), [toPoint (g.shape.idx2coord A)], [g.vel A]⟩ s := by
      induction n with
      | zero => exact ⟨_, .refl _⟩
      | succ n ih =>
        obtain ⟨s, h⟩ := ih
        obtain ⟨s', e1, _⟩ := stp s (all n s h)
        exact ⟨s', .tail h ⟨nd s (all n s h), e1⟩⟩
    obtain ⟨s, h⟩ := this
    exact ⟨s, h, nd s (all n s h)⟩
  · rintro ⟨path, vels, idx', s0, n, s, e1, e2, e3, _⟩
    rw [hinit] at e1
    injection e1 with e1
    rw [← e1] at e2
    exact nd s (all n s e2) e3

end GD

/-- **C79, refuted: corridors of width one.**  On the times computed by any of FMM, FSM, LSM, DDQM and FIM: from a cell whose two neighbours in some direction are both obstacles
(and neither they nor the cell are starts) gradient descent does not make one step: the slope is `-inf + inf = NaN`, and converting it to a coordinate is undefined behaviour. -/
theorem C79_refuted_narrow {h : ℝ} {v : Nat → ℝ} {pts : List Nat} (X : XInput dims g h v pts) (hfr : Fresh g) (a : Grid XR) (ha : FinalGrid dims g pts a) {c k : Nat}
    (hk : k < dims.length) (hc : Inner dims 1 c) (hcs : c ∉ pts)
    (h1 : g.occ (c - strideProd dims k) = true) (h1s : c - strideProd dims k ∉ pts) (h2 : g.occ (c + strideProd dims k) = true) (h2s : c + strideProd dims k ∉ pts) (δ : ℝ) :
    (∃ s0, GD.init a c = some s0 ∧ ¬ GD.Done a s0 ∧ GD.next a (fin δ) s0 = none) ∧ ¬ ∃ path vels idx', GD.Runs a c (fin δ) path vels idx' := by
  obtain ⟨U, hU, hU0, _⟩ := C17_unique_solution X.problem X.wellPosed
  have hs : a.shape = Shape.mk' dims := (ha.sameMap X).shape.trans X.shape
  have hf := X.fits
  have hnc : a.shape.ncells = dims.prod := by rw [hs]; exact mk'_ncells (hf.mono (by norm_num))
  obtain ⟨n1, n2, _⟩ := C35_reads_neighbours hf hc.1 hk (hc.2 k hk).1 (hc.2 k hk).2
  have hc1 := hc.1
  have wall : ∀ j, j < dims.prod → g.occ j = true → j ∉ pts → a.value j = pinf := fun j hj ho hn => by
    have hUj : U j = ⊤ := (hU j hj).2.1 hn ho
    rcases ha.exact X hfr hU hj with ⟨_, e⟩ | ⟨e, r, e1, _⟩
    · exact e
    · rw [hUj] at e1; exact absurd e1.symm WithTop.coe_ne_top
  have hinit : GD.init a c = some ⟨c, GD.toPoint (a.shape.idx2coord c), [GD.toPoint (a.shape.idx2coord c)], [a.vel c]⟩ := by
    unfold GD.init; rw [hnc, if_pos hc.1]
  have hnd : ¬ GD.Done a ⟨c, GD.toPoint (a.shape.idx2coord c), [GD.toPoint (a.shape.idx2coord c)], [a.vel c]⟩ := by
    refine GD.not_done rfl (ha.good X hfr c hc.1) ?_
    dsimp only
    intro h0
    have ho : g.occ c = true ∨ g.occ c = false := by cases g.occ c <;> simp
    rcases ho with ho | ho
    · rw [wall c hc.1 ho hcs] at h0; cases h0
    · have hp := sol_pos X hU hc.1 ho hcs
      rcases ha.exact X hfr hU hc.1 with ⟨_, e⟩ | ⟨e, r, e1, e2, e3, _⟩
      · rw [h0] at e; cases e
      · rw [e2] at h0
        injection h0 with h0
        rw [e1] at hp
        have : (0:ℝ) < e := by exact_mod_cast hp
        linarith
  have hnx : GD.next a (fin δ) ⟨c, GD.toPoint (a.shape.idx2coord c), [GD.toPoint (a.shape.idx2coord c)], [a.vel c]⟩ = none := by
    cases hn : GD.next a (fin δ) ⟨c, GD.toPoint (a.shape.idx2coord c), [GD.toPoint (a.shape.idx2coord c)], [a.vel c]⟩ with
    | none => rfl
    | some s' =>
      exfalso
      obtain ⟨q, _, hst, _⟩ := GD.next_spec (s := ⟨c, GD.toPoint (a.shape.idx2coord c), [GD.toPoint (a.shape.idx2coord c)], [a.vel c]⟩) hf hs (ha.good X hfr) hc.1
        (GD.centre_len hf hc.1) (by dsimp only; rw [hs, GD.toPoint_eq]) hn
      obtain ⟨sl, m, m4, _⟩ := hst.move
      have := m4 k hk
      dsimp only at this
      rw [wall _ (by omega) h1 h1s, wall _ n2 h2 h2s] at this
      rcases this with ⟨x, y, e, _⟩ | ⟨x, e, _⟩ | ⟨y, _, e, _⟩ <;> cases e
  refine ⟨⟨_, hinit, hnd, hnx⟩, ?_⟩
  rintro ⟨path, vels, idx', s0, n, s, e1, e2, e3, _⟩
  rw [hinit] at e1
  injection e1 with e1
  rw [← e1] at e2
  have := Steps.inv (I := fun s => s = (⟨c, GD.toPoint (a.shape.idx2coord c), [GD.toPoint (a.shape.idx2coord c)], [a.vel c]⟩ : GD.St XR))
    (r := GD.Step a (fin δ)) (by
      rintro s t rfl ⟨_, ht⟩
      rw [hnx] at ht; cases ht) e2 rfl
  rw [this] at e3
  exact hnd e3

/-- non-vacuity of `C79_refuted_narrow`: the 3x3 map with the obstacles 3 and 5, start 1 -/
example (δ : ℝ) : ∃ (g a : Grid XR) (_ : XInput [3,3] g 1 (fun _ => 1) [1]), Fresh g ∧ FinalGrid [3,3] g [1] a ∧ ¬ ∃ path vels idx', GD.Runs a 4 (fin δ) path vels idx' := by
  let m : Grid XR :=
    { shape := Shape.mk' [3,3], leaf := fin 1, clean := true,
      cells := fun i => { value := pinf, occupancy := if i = 3 ∨ i = 5 then fin 0 else fin 1, hValue := fin 0, state := .opn, bucket := 0, index := i },
      occupied := [3,5], scratch := (0,0) }
  have wall : ∀ i, i = 3 ∨ i = 5 → m.occ i = true := fun i hi => by
    show XR.lt (if i = 3 ∨ i = 5 then fin 0 else fin 1) (XR.fin eps) = true
    rw [if_pos hi]; simp [XR.lt, eps_pos]
  have X : XInput [3,3] m 1 (fun _ => 1) [1] := by
    refine ⟨⟨by decide, by decide, by decide⟩, by decide, rfl, by decide, one_pos, rfl, fun i _ ho => ?_⟩
    have : ¬ (i = 3 ∨ i = 5) := fun h => by rw [wall i h] at ho; cases ho
    show (if i = 3 ∨ i = 5 then fin 0 else fin 1) = _
    rw [if_neg this]
  have hfr : Fresh m := ⟨fun _ => rfl, fun _ => rfl, fun _ => rfl⟩
  obtain ⟨⟨n, s, hs, hd⟩, _⟩ := C27_DDQM_exact X hfr noGoal (fin 1) (fin 1)
  have hF : FinalGrid [3,3] m [1] s.g := .ddqm (by decide) hs hd
  exact ⟨m, s.g, X, hfr, hF, (C79_refuted_narrow X hfr s.g hF (c := 4) (k := 0) (by decide) ⟨by decide, by decide⟩ (by decide) (wall 3 (.inl rfl)) (by decide)
    (wall 5 (.inr rfl)) (by decide) δ).2⟩

namespace LoopMap

/-- The map, 3 columns and 5 rows, cells of size 1: one obstacle, cell 4; the cells 9 and 11 are slow. -/
def speeds : List Rat := [1,1,1, 1,0,1, 1,1,1, 1/2,1,1/2, 1,1,1]

def mapQ : Grid XQ :=
  { shape := Shape.mk' [3, 5], leaf := .fin 1, clean := true,
    cells := fun i => { (Cell.default : Cell XQ) with occupancy := .fin (speeds.getD i 1), index := i }, occupied := [4], scratch := (0, 0) }

/-- the map -/
noncomputable def map : Grid XR := mapQ.toXR

noncomputable def speed (i : Nat) : ℝ := ((speeds.getD i 1 : Rat) : ℝ)

theorem input : XInput [3, 5] map 1 speed [1] :=
  ⟨⟨by decide, by decide, by decide⟩, by decide, rfl, by decide, by norm_num, by show XR.fin _ = XR.fin _; norm_num, fun i _ _ => rfl⟩

theorem fresh : Fresh map := ⟨fun _ => rfl, fun _ => rfl, fun _ => by show XR.fin _ = XR.fin _; norm_num⟩

noncomputable def fmm : BSt XR DHeap := bRun DHeap.band (Cfg.plain false noGoal) eikS 16 (bInit DHeap.band (Cfg.plain false noGoal) map (DHeap.new 15) [1])
def fmmQ : BSt XQ DHeap := bRun DHeap.band (Cfg.plain false noGoal) eikS 16 (bInit DHeap.band (Cfg.plain false noGoal) mapQ (DHeap.new 15) [1])

theorem fmm_eq : fmm = fmmQ.toXR := FMM.reflect dheap_hom mapQ (DHeap.new 15) [1] 16 (by decide +kernel)

theorem val (i : Nat) (r : Rat) (x : ℝ) (hx : (r : ℝ) = x) (h : fmmQ.g.value i = .fin r) : fmm.g.value i = fin x := by
  rw [fmm_eq]
  show (fmmQ.g.value i).toXR = _
  rw [h]; exact toXR_fin r x hx

end LoopMap

open LoopMap in
/-- **C79, refuted by a run of FMM**: on a 3 x 5 map with the start in the middle of the first row, one obstacle in front of it and two slow cells further back, FMM with its
binary heap terminates and reaches every free cell; the extraction of the path from cell 7, straight behind the obstacle, with the default step never ends. -/
theorem C79_refuted_FMM : (∃ (_ : XInput [3, 5] LoopMap.map 1 speed [1]), Fresh LoopMap.map) ∧ BDone DHeap.band fmm ∧ (∀ i, i < 15 → LoopMap.map.occ i = false → ∃ r, fmm.g.value i = fin r) ∧
    ∃ s0, GD.init fmm.g 7 = some s0 ∧ (∀ n, ∃ s, Steps (GD.Step fmm.g (fin 1)) n s0 s ∧ ¬ GD.Done fmm.g s) ∧ ¬ ∃ path vels idx', GD.Runs fmm.g 7 (fin 1) path vels idx' := by
  refine ⟨⟨input, fresh⟩, ?_, ?_, ?_⟩
  · rw [fmm_eq]
    have : BDone DHeap.band fmmQ := by decide +kernel
    exact this
  · have : ∀ i, i < 15 → mapQ.occ i = false → fmmQ.g.value i = .fin (([1,0,1, 2,0,2, 3,4,3, 5,5,5, 6,6,6] : List Rat).getD i 0) := by decide +kernel
    intro i hi ho
    exact ⟨_, val i _ _ rfl (this i hi (by rw [← Grid.toXR_occ]; exact ho))⟩
  · refine C79_refuted_loop (dims := [3,5]) input.fits (by rw [fmm_eq]; decide +kernel) (k := 1) (by decide) (a := 4) (b := 5) ⟨by decide, by decide⟩ ⟨by decide, by decide⟩
      (val 7 4 4 (by norm_num) (by decide +kernel)) (val 10 5 5 (by norm_num) (by decide +kernel)) (by norm_num) (by norm_num)
      (.inl ?_) (.inr ⟨6, val 13 6 6 (by norm_num) (by decide +kernel), by norm_num⟩) ?_ ?_
    · rw [fmm_eq]
      show (fmmQ.g.value 4).toXR = pinf
      have : fmmQ.g.value 4 = .pinf := by decide +kernel
      rw [this]; rfl
    · intro i hi hne
      have : i = 0 := by simp at hi; omega
      subst this
      exact ⟨3, val 6 3 3 (by norm_num) (by decide +kernel), val 8 3 3 (by norm_num) (by decide +kernel)⟩
    · intro i hi hne
      have : i = 0 := by simp at hi; omega
      subst this
      exact ⟨5, val 9 5 5 (by norm_num) (by decide +kernel), val 11 5 5 (by norm_num) (by decide +kernel)⟩

end FMV
