import Verif.Lemmas.DirMin
import Mathlib.Tactic.Linarith
import Mathlib.Tactic.NormNum
/-!
# C08, C09: the local solver `solveEikonal`;  C46: `isTimeBetterThan`

The theorems are about the faithful `solveEikonalS` (with the grid's scratch buffer) on grids whose dimensions all
have at least two cells, in exact arithmetic.
-/
set_option linter.unusedSectionVars false
set_option linter.unusedVariables false
namespace FMV
open Spec Shape XR

/-- Hypotheses shared by C08 and C09: a grid the library can index with at least two cells per dimension,
times that are `+inf` or non-negative, positive leaf size and speed. -/
structure EikInput (dims : List Nat) (g : Grid XR) (i : Nat) (h v : ℝ) : Prop where
  fits : Fits dims (2^31+1)
  two : ∀ x ∈ dims, 2 ≤ x
  shape : g.shape = Shape.mk' dims
  inside : i < dims.prod
  times : ∀ j, g.value j = pinf ∨ ∃ r : ℝ, 0 ≤ r ∧ g.value j = fin r
  hpos : 0 < h
  vpos : 0 < v
  leaf : g.leaf = fin h
  speed : g.vel i = fin v

/-- `m k` is the smallest arrival time among the neighbours of cell `i` along axis `k`. -/
def DirMins (dims : List Nat) (g : Grid XR) (i : Nat) (m : Nat → WithTop ℝ) : Prop :=
  ∀ k, k < dims.length → IsGLB {t | ∃ j, j < dims.prod ∧
    AdjacentIn k ((Shape.mk' dims).idx2coord i) ((Shape.mk' dims).idx2coord j) ∧ t = toT (g.value j)} (m k)

theorem EikInput.pure {dims g i h v} (E : EikInput dims g i h v) :
    (solveEikonalS g i).1 = solveEikonal g i ∧ ∃ scr, (solveEikonalS g i).2 = { g with scratch := scr } := by
  apply solveEikonalS_eq
  intro d hd
  rw [E.shape] at hd ⊢
  have hd' : d < dims.length := hd
  apply nbrsDim_length_pos E.fits E.inside hd'
  have : dims.getD d 0 ∈ dims := by
    rw [List.getD_eq_getElem?_getD, List.getElem?_eq_getElem hd']; simp
  exact E.two _ this

theorem EikInput.eq_upd {dims g i h v} (E : EikInput dims g i h v) {m : Nat → WithTop ℝ} (hm : DirMins dims g i m) :
    (solveEikonalS g i).1 = ofT (upd (h/v) (toT (g.value i)) ((List.range dims.length).map m)) := by
  rw [E.pure.1, solveEikonal_eq E.times E.hpos E.vpos E.leaf E.speed]
  have : mins g.shape (tv g) i = (List.range dims.length).map m := by
    unfold mins
    rw [E.shape]
    apply List.map_congr_left
    intro k hk
    have hk' : k < dims.length := List.mem_range.1 hk
    exact ((isGLB_iff_dimMin E.fits (tv g) E.inside hk').1 (hm k hk')).symm
  rw [this]; rfl

/-- **C08**: if some axis direction offers a finite neighbour time below the cell's own time, `solveEikonal` returns a finite
`u` and there is a set `S` of usable directions, the ones with the smallest times, such that `u` solves the
quadratic upwind equation over `S`, is at least each time used, and every usable direction left out exceeds `u - COMP_MARGIN`.
The call changes nothing but the scratch buffer. -/
theorem C08_solveEikonal_upwind {dims : List Nat} {g : Grid XR} {i : Nat} {h v : ℝ} (E : EikInput dims g i h v)
    (m : Nat → WithTop ℝ) (hm : DirMins dims g i m)
    (hex : ∃ k, k < dims.length ∧ m k ≠ ⊤ ∧ m k < toT (g.value i)) :
    let usableDir := fun k => k < dims.length ∧ m k ≠ ⊤ ∧ m k < toT (g.value i)
    (∃ (u : ℝ) (S : Finset Nat) (t : Nat → ℝ),
      (solveEikonalS g i).1 = fin u ∧
      S.Nonempty ∧ (∀ k ∈ S, usableDir k) ∧ (∀ k, usableDir k → m k = (t k : WithTop ℝ)) ∧
      ∑ k ∈ S, (u - t k)^2 = (h / v)^2 ∧
      (∀ k ∈ S, t k ≤ u) ∧
      (∀ k, usableDir k → k ∉ S → u - eps < t k) ∧
      (∀ a ∈ S, ∀ b, usableDir b → b ∉ S → t a ≤ t b)) ∧
    ∃ scr, (solveEikonalS g i).2 = { g with scratch := scr } := by
  classical
  intro usableDir
  refine ⟨?_, E.pure.2⟩
  have hc : 0 < h / v := div_pos E.hpos E.vpos
  rw [E.eq_upd hm]
  unfold upd
  rw [usableT_map_eq]
  set L := (List.range dims.length).filter (fun k => decide (m k ≠ ⊤ ∧ m k < toT (g.value i))) with hL
  have hmem : ∀ k, k ∈ L ↔ usableDir k := by intro k; simp [hL, usableDir]
  have hnd : L.Nodup := List.Nodup.filter _ List.nodup_range
  obtain ⟨k0, hk0⟩ := hex
  have hne : L.map (fun k => (m k).untopD 0) ≠ [] := by
    intro h0
    have : L = [] := by simpa using h0
    have h1 := (hmem k0).2 hk0
    rw [this] at h1; simp at h1
  obtain ⟨u, used, unused, h1, h2, h3, h4, h5, h6, h7⟩ := eikR_spec hc hne
  obtain ⟨L', hp, hL'⟩ := exists_map_eq_of_perm (fun k => (m k).untopD 0) h2 rfl
  obtain ⟨l1, l2, rfl, e1, e2⟩ := List.map_eq_append_iff.1 hL'
  have hnd' : (l1 ++ l2).Nodup := hp.nodup_iff.1 hnd
  have hin : ∀ k, k ∈ l1 ∨ k ∈ l2 ↔ usableDir k := by
    intro k; rw [← hmem, hp.mem_iff, List.mem_append]
  have out : ∀ b, usableDir b → b ∉ l1.toFinset → b ∈ l2 := by
    intro b hb hnb
    rcases (hin b).2 hb with hh | hh
    · exact absurd (List.mem_toFinset.2 hh) hnb
    · exact hh
  refine ⟨u, l1.toFinset, fun k => (m k).untopD 0, by rw [h1]; rfl, ?_, ?_, ?_, ?_, ?_, ?_, ?_⟩
  · rw [List.toFinset_nonempty_iff]
    rintro rfl
    apply h3; rw [← e1]; rfl
  · intro k hk; exact (hin k).1 (Or.inl (List.mem_toFinset.1 hk))
  · intro k hk
    have := hk.2.1
    cases hmk : m k with
    | top => exact absurd hmk this
    | coe r => show _ = (((m k).untopD 0 : ℝ) : WithTop ℝ); rw [hmk]; rfl
  · rw [List.sum_toFinset _ (List.Nodup.of_append_left hnd'), ← h4, ← e1]
    unfold sqs; rw [List.map_map]; rfl
  · intro k hk; apply h5; rw [← e1]; exact List.mem_map_of_mem (List.mem_toFinset.1 hk)
  · intro k hk hnk; apply h6; rw [← e2]; exact List.mem_map_of_mem (f := fun k => (m k).untopD 0) (out k hk hnk)
  · intro a ha b hb hnb
    apply h7
    · rw [← e1]; exact List.mem_map_of_mem (f := fun k => (m k).untopD 0) (List.mem_toFinset.1 ha)
    · rw [← e2]; exact List.mem_map_of_mem (f := fun k => (m k).untopD 0) (out b hb hnb)

/-- **C09**: `solveEikonal` is `+inf` exactly if no direction has a finite neighbour time below the cell's own; otherwise it is
a finite number, strictly above the smallest usable neighbour time and at most that time plus `leafsize/velocity`.  In particular it is
never NaN and never negative. -/
theorem C09_solveEikonal_bounds {dims : List Nat} {g : Grid XR} {i : Nat} {h v : ℝ} (E : EikInput dims g i h v)
    (m : Nat → WithTop ℝ) (hm : DirMins dims g i m) :
    let usableDir := fun k => k < dims.length ∧ m k ≠ ⊤ ∧ m k < toT (g.value i)
    ((solveEikonalS g i).1 = pinf ↔ ∀ k, ¬ usableDir k) ∧
    (∀ k0, usableDir k0 → (∀ k, usableDir k → m k0 ≤ m k) →
      ∃ u t : ℝ, (solveEikonalS g i).1 = fin u ∧ m k0 = (t : WithTop ℝ) ∧ t < u ∧ u ≤ t + h / v) := by
  intro usableDir
  have hc : 0 < h / v := div_pos E.hpos E.vpos
  have hmain : ∀ k0, usableDir k0 → (∀ k, usableDir k → m k0 ≤ m k) →
      ∃ u t : ℝ, (solveEikonalS g i).1 = fin u ∧ m k0 = (t : WithTop ℝ) ∧ t < u ∧ u ≤ t + h / v := by
    intro k0 hk0 hmin
    obtain ⟨⟨u, S, t, h1, ⟨s, hs⟩, h3, h4, h5, h6, h7, h8⟩, _⟩ := C08_solveEikonal_upwind E m hm ⟨k0, hk0⟩
    have tmin : ∀ k, usableDir k → t k0 ≤ t k := by
      intro k hk
      have := hmin k hk
      rw [h4 k0 hk0, h4 k hk] at this
      exact_mod_cast this
    refine ⟨u, t k0, h1, h4 k0 hk0, ?_, ?_⟩
    · by_contra hcon
      have hz : ∑ k ∈ S, (u - t k)^2 = 0 := by
        apply Finset.sum_eq_zero
        intro k hk
        have : u = t k := le_antisymm (le_trans (not_lt.1 hcon) (tmin k (h3 k hk))) (h6 k hk)
        rw [this]; ring
      rw [h5] at hz
      have : 0 < (h/v)^2 := by positivity
      linarith
    · by_cases hkS : k0 ∈ S
      · have : (u - t k0)^2 ≤ (h/v)^2 := by
          rw [← h5]
          exact Finset.single_le_sum (f := fun k => (u - t k)^2) (fun k _ => sq_nonneg _) hkS
        have := abs_le_of_sq_le_sq' this hc.le
        linarith [this.2]
      · have := h8 s hs k0 hk0 hkS
        have hst : t s = t k0 := le_antisymm this (tmin s (h3 s hs))
        have : (u - t s)^2 ≤ (h/v)^2 := by
          rw [← h5]
          exact Finset.single_le_sum (f := fun k => (u - t k)^2) (fun k _ => sq_nonneg _) hs
        have := abs_le_of_sq_le_sq' this hc.le
        rw [← hst]
        linarith [this.2]
  refine ⟨?_, hmain⟩
  constructor
  · intro hp k hk
    obtain ⟨⟨u, S, t, h1, _⟩, _⟩ := C08_solveEikonal_upwind E m hm ⟨k, hk⟩
    rw [hp] at h1; cases h1
  · intro hno
    rw [E.eq_upd hm, (upd_eq_top_iff hc).2]
    · rfl
    · intro x hx
      rw [List.mem_map] at hx
      obtain ⟨k, hk, rfl⟩ := hx
      by_contra hcon
      push Not at hcon
      exact hno k ⟨by simpa using hk, hcon.1, hcon.2⟩

/-- the outcome is never NaN -/
theorem C09_never_nan {dims : List Nat} {g : Grid XR} {i : Nat} {h v : ℝ} (E : EikInput dims g i h v) :
    (solveEikonalS g i).1 = pinf ∨ ∃ u : ℝ, 0 ≤ u ∧ (solveEikonalS g i).1 = fin u := by
  rw [E.pure.1]
  exact solveEikonal_good E.times E.hpos E.vpos E.leaf E.speed

/-- non-vacuity of C08/C09: a 2x2 grid, cell 0 at time 0, unit speeds; cell 1 has a usable direction -/
noncomputable def ex22 : Grid XR :=
  { shape := Shape.mk' [2,2], leaf := fin 1, clean := false
    cells := fun i => { (Cell.default : Cell XR) with value := if i = 0 then fin 0 else pinf, index := i }
    occupied := [], scratch := (0,0) }

example : EikInput [2,2] ex22 1 1 1 := by
  refine ⟨⟨by decide, by decide, by decide⟩, by decide, rfl, by decide, ?_, by norm_num, by norm_num, rfl, rfl⟩
  intro j
  by_cases hj : j = 0
  · right; exact ⟨0, le_refl _, by simp [ex22, Grid.value, hj]⟩
  · left; simp [ex22, Grid.value, hj]

example : DirMins [2,2] ex22 1 (dimMin (Shape.mk' [2,2]) (tv ex22) 1) :=
  fun k hk => (isGLB_iff_dimMin ⟨by decide, by decide, by decide⟩ _ (by decide) hk).2 rfl

example : dimMin (Shape.mk' [2,2]) (tv ex22) 1 0 ≠ ⊤ ∧ dimMin (Shape.mk' [2,2]) (tv ex22) 1 0 < toT (ex22.value 1) := by
  have : dimMin (Shape.mk' [2,2]) (tv ex22) 1 0 = 0 := by
    have e : (Shape.mk' [2,2]).nbrsDim 1 0 = [0] := by decide
    simp [dimMin, e, tv, ex22, Grid.value]
  rw [this]
  constructor
  · exact WithTop.coe_ne_top
  · simp [ex22, Grid.value, toT]

/-- the 3x1 grid of `C08_refuted_size_one` -/
noncomputable def ex31 : Grid XR :=
  { shape := Shape.mk' [3,1], leaf := fin 1, clean := false
    cells := fun i => { (Cell.default : Cell XR) with value := if i = 0 then fin 0 else pinf, index := i }
    occupied := [], scratch := (0,0) }

/-- The hypothesis "at least two cells per dimension" of C08 is needed: on the 3x1 grid with unit leaf size and speed and cell 0 at
time 0, the stale scratch buffer makes `solveEikonal(1)` count the neighbour twice: the result `u` satisfies `2 u^2 = 1`, although
the only direction with neighbours has minimum 0 and the upwind equation `u^2 = 1` demands `u = 1`. -/
theorem C08_refuted_size_one :
    ∃ g : Grid XR, g.shape = Shape.mk' [3,1] ∧ g.leaf = fin 1 ∧ (∀ j, g.vel j = fin 1) ∧
      g.value 0 = fin 0 ∧ g.value 1 = pinf ∧ g.value 2 = pinf ∧
      ∃ u : ℝ, (solveEikonalS g 1).1 = fin u ∧ 2 * u^2 = 1 := by
  refine ⟨ex31, rfl, rfl, fun _ => rfl, ?_, ?_, ?_, ?_⟩
  · simp [ex31, Grid.value]
  · simp [ex31, Grid.value]
  · simp [ex31, Grid.value]
  · have e0 : (Shape.mk' [3,1]).nbrsDim 1 0 = [0,2] := by decide
    have e1 : (Shape.mk' [3,1]).nbrsDim 1 1 = [] := by decide
    have en : (Shape.mk' [3,1]).ndims = 2 := rfl
    have hr : List.range 2 = [0, 1] := by decide
    have hi0 : Arith.isInf (fin 0 : XR) = false := rfl
    have hlt : Arith.lt (fin 0 : XR) pinf = true := rfl
    have hgoal : (solveEikonalS ex31 1).1 = solveList (fin 1) (fin 1) ([(0:ℝ), 0].map fin) := by
      unfold solveEikonalS ex31
      simp only [en, hr, collectS, Grid.getMinValueInDimS, e0, e1, Grid.value, Grid.vel]
      simp [e0, e1, hi0, hlt, Cell.default, Arith.one]
    rw [hgoal, solveList_fin one_pos one_pos]
    obtain ⟨u, used, unused, h1, h2, h3, h4, h5, h6, h7⟩ := eikR_spec (c := 1/1) (by norm_num) (ts := [(0:ℝ),0]) (by simp)
    refine ⟨u, by rw [h1]; rfl, ?_⟩
    have hall : ∀ t ∈ used ++ unused, t = 0 := by
      intro t ht
      have := h2.symm.subset ht
      simpa using this
    have hlen := h2.length_eq
    have hz : ∀ l : List ℝ, (∀ t ∈ l, t = 0) → sqs u l = l.length * u^2 := by
      intro l
      induction l with
      | nil => simp
      | cons a l ih =>
        intro hl
        rw [sqs_cons, ih (fun t ht => hl t (by simp [ht])), hl a (by simp), List.length_cons]; push_cast; ring
    have hs := hz used (fun t ht => hall t (by simp [ht]))
    rw [h4] at hs
    simp only [List.length_append, List.length_cons, List.length_nil] at hlen
    have hu : used.length = 1 ∨ used.length = 2 := by
      have : 0 < used.length := List.length_pos_iff.2 h3
      omega
    rcases hu with hu | hu
    · exfalso
      have : 0 < unused.length := by omega
      obtain ⟨b, hb⟩ := List.exists_mem_of_length_pos this
      have hb0 : b = 0 := hall b (by simp [hb])
      have := h6 b hb
      obtain ⟨a, ha⟩ := List.exists_mem_of_length_pos (by omega : 0 < used.length)
      have hau := h5 a ha
      rw [hall a (by simp [ha])] at hau
      rw [hu] at hs; simp at hs
      have heps : eps < 1 := by unfold eps; norm_num
      rw [hb0] at this
      nlinarith
    · rw [hu] at hs; push_cast at hs; linarith

/-! ## C46 -/

/-- Laws of `<` and of adding the margin, true of IEEE doubles (adding a positive number never decreases). -/
structure MarginLaws (F : Type) [Arith F] : Prop extends LtLaws F where
  margin_lt : ∀ a b : F, Arith.lt (Arith.add a Arith.margin) b = true → Arith.lt a b = true

/-- **C46** (order part, any arithmetic with `MarginLaws`, e.g. doubles): `isTimeBetterThan` is irreflexive,
asymmetric and transitive. -/
theorem C46_strict_order {F : Type} [Arith F] (L : MarginLaws F) :
    (∀ a : F, Arith.better a a = false) ∧
    (∀ a b : F, Arith.better a b = true → Arith.better b a = false) ∧
    (∀ a b c : F, Arith.better a b = true → Arith.better b c = true → Arith.better a c = true) := by
  have irr : ∀ a : F, Arith.better a a = false := by
    intro a
    by_contra h
    have h' : Arith.better a a = true := by simpa using h
    have := L.margin_lt _ _ h'
    rw [L.irrefl] at this; simp at this
  have tr : ∀ a b c : F, Arith.better a b = true → Arith.better b c = true → Arith.better a c = true := by
    intro a b c h1 h2
    exact L.trans _ _ _ h1 (L.margin_lt _ _ h2)
  refine ⟨irr, ?_, tr⟩
  intro a b h1
  by_contra h2
  have := tr a b a h1 (by simpa using h2)
  rw [irr] at this; simp at this

/-- The laws hold for exact arithmetic with infinities and NaN. -/
theorem XR.marginLaws : MarginLaws XR where
  toLtLaws := XR.ltLaws
  margin_lt a b := by
    cases a <;> cases b <;> simp [Arith.lt, XR.lt, Arith.add, XR.add, Arith.margin]
    intro h; linarith [eps_pos]

/-- **C46** (quantitative part): never true with a NaN operand, and on numbers it means a difference above
`COMP_MARGIN = 100000 * 2^-52`. -/
theorem C46_margin :
    (∀ b : XR, Arith.better XR.nan b = false) ∧ (∀ a : XR, Arith.better a XR.nan = false) ∧
    (∀ a b : ℝ, Arith.better (fin a) (fin b) = true ↔ 100000 / 2^52 < b - a) ∧
    (∀ a : ℝ, Arith.better (fin a) pinf = true) ∧ (∀ a : XR, Arith.better pinf a = false) := by
  refine ⟨?_, ?_, ?_, ?_, ?_⟩
  · intro b; cases b <;> simp [Arith.better, Arith.lt, XR.lt, Arith.add, XR.add]
  · intro a; cases a <;> simp [Arith.better, Arith.lt, XR.lt, Arith.add, XR.add, Arith.margin]
  · intro a b
    simp [Arith.better, Arith.lt, XR.lt, Arith.add, XR.add, Arith.margin]
    unfold eps
    constructor <;> intro h <;> norm_num at * <;> linarith
  · intro a; simp [Arith.better, Arith.lt, XR.lt, Arith.add, XR.add, Arith.margin]
  · intro a; cases a <;> simp [Arith.better, Arith.lt, XR.lt, Arith.add, XR.add, Arith.margin]

end FMV
