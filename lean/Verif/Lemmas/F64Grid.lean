import Verif.Lemmas.Approx
import Verif.Lemmas.F64Loop
import Verif.Lemmas.Improve
import Verif.Props.F64
/-! `solveEikonal` in doubles as an approximate local solver. -/
set_option linter.unusedSectionVars false
set_option linter.unusedVariables false
namespace FMV
open Spec Shape XR
variable {R : Rounding}

/-- a cell of doubles as a cell of extended reals -/
def cellX (c : Cell (F64 R)) : Cell XR :=
  { value := c.value.1, occupancy := c.occupancy.1, hValue := c.hValue.1, state := c.state, bucket := c.bucket, index := c.index }

/-- a grid of doubles as a grid of extended reals -/
def gridX (g : Grid (F64 R)) : Grid XR :=
  { shape := g.shape, leaf := g.leaf.1, clean := g.clean, cells := fun i => cellX (g.cells i), occupied := g.occupied, scratch := g.scratch }

@[simp] theorem gridX_value (g : Grid (F64 R)) (i : Nat) : (gridX g).value i = (g.value i).1 := rfl
@[simp] theorem gridX_occ (g : Grid (F64 R)) (i : Nat) : (gridX g).occ i = g.occ i := rfl
@[simp] theorem gridX_shape (g : Grid (F64 R)) : (gridX g).shape = g.shape := rfl
@[simp] theorem gridX_vel (g : Grid (F64 R)) (i : Nat) : (gridX g).vel i = (g.vel i).1 := rfl
@[simp] theorem gridX_leaf (g : Grid (F64 R)) : (gridX g).leaf = g.leaf.1 := rfl
@[simp] theorem gridX_state (g : Grid (F64 R)) (i : Nat) : (gridX g).state i = g.state i := rfl

theorem SameMap.gridX {g g' : Grid (F64 R)} (h : SameMap g g') : SameMap (gridX g) (gridX g') :=
  ⟨h.shape, by show g'.leaf.1 = g.leaf.1; rw [h.leaf], h.occupied, fun i => by show ((g'.cells i).occupancy).1 = ((g.cells i).occupancy).1; rw [h.occupancy],
    fun i => h.index i⟩

theorem gridX_minDim (g : Grid (F64 R)) (i d : Nat) : (gridX g).minDim i d = (g.minDim i d).1 := by
  unfold Grid.minDim
  rw [gridX_shape]
  split
  · rfl
  · rfl
  · simp only [gridX_value]
    rename_i a b l hh
    show (if Arith.lt (g.value a).1 (g.value b).1 = true then _ else _) = (if Arith.lt (g.value a) (g.value b) = true then _ else _ : F64 R).1
    have : Arith.lt (g.value a).1 (g.value b).1 = Arith.lt (g.value a) (g.value b) := rfl
    rw [this]
    split <;> rfl

theorem gridX_usable (g : Grid (F64 R)) (i : Nat) : usable (gridX g) i = (usable g i).map (·.1) := by
  unfold usable
  rw [List.filter_map, gridX_shape]
  have : (gridX g).minDim i = fun d => (g.minDim i d).1 := by funext d; exact gridX_minDim g i d
  rw [this]
  rw [List.filter_map, List.map_map]
  rfl

/-- times of a grid of doubles -/
noncomputable def tf (g : Grid (F64 R)) : Nat → WithTop ℝ := tv (gridX g)

theorem tf_eq (g : Grid (F64 R)) (i : Nat) : tf g i = toT (g.value i).1 := rfl

/-- Doubles, sizes for which the error analysis holds; `cm`/`cM`: shortest/longest time to cross a cell, `A`: bound on all times. -/
structure DInput (dims : List Nat) (g : Grid (F64 R)) (h : ℝ) (v : Nat → ℝ) (pts : List Nat) (cm cM A : ℝ) : Prop where
  /-- grid and start points, read as real numbers: cell size `h`, speeds `v` -/
  X : XInput dims (gridX g) h v pts
  /-- cell size, speeds and times far from underflow and overflow -/
  h1 : (2:ℝ)^(-200:ℤ) ≤ h
  h2 : h ≤ (2:ℝ)^(200:ℤ)
  v2 : ∀ i, i < dims.prod → g.occ i = false → v i ≤ (2:ℝ)^(200:ℤ)
  /-- crossing a free cell takes between `cm` and `cM` -/
  cm0 : 0 < cm
  lo : ∀ i, i < dims.prod → g.occ i = false → cm ≤ h / v i
  hi : ∀ i, i < dims.prod → g.occ i = false → h / v i ≤ cM
  cA : cM ≤ A
  cmA : cm ≤ A
  A2 : A ≤ (2:ℝ)^(300:ℤ)
  /-- the grid is not so large that accumulated rounding exceeds a cell crossing -/
  small : 640 * (dims.length:ℝ)^4 * uu * A^2 ≤ cm^2
  /-- crossing a cell takes clearly longer than `COMP_MARGIN` -/
  margin : 4 * eps ≤ cm

namespace DInput
variable {dims : List Nat} {g : Grid (F64 R)} {h : ℝ} {v : Nat → ℝ} {pts : List Nat} {cm cM A : ℝ}

theorem D2 (I : DInput dims g h v pts cm cM A) : (2:ℝ) ≤ dims.length := by exact_mod_cast I.X.fits.two

theorem scale (I : DInput dims g h v pts cm cM A) {i : Nat} (hi : i < dims.prod) (ho : g.occ i = false) : F64.Scale h (v i) A dims.length := by
  refine ⟨I.h1, I.h2, ?_, I.v2 i hi ho, le_trans (I.hi i hi ho) I.cA, I.A2, ?_, ?_⟩
  · have ho' : (gridX g).occ i = false := ho
    have := I.X.speed i hi ho'
    unfold Grid.occ Cell.isOccupied at ho'
    unfold Grid.vel at this
    rw [this] at ho'
    have hv : eps ≤ v i := by simpa [Arith.lt, XR.lt, Arith.margin] using ho'
    refine le_trans ?_ hv
    have : (2:ℝ)^(-100:ℤ) ≤ (2:ℝ)^(-52:ℤ) := zpow_le_zpow_right₀ (by norm_num) (by norm_num)
    unfold XR.eps
    rw [zpow_neg] at *
    norm_num at *
  · have := I.X.fits.two; omega
  · refine le_trans I.small ?_
    have := I.lo i hi ho
    have := I.cm0
    gcongr

/-- error of a local update -/
noncomputable def e (_ : DInput dims g h v pts cm cM A) : ℝ := F64.eerr cm A dims.length

theorem Apos (I : DInput dims g h v pts cm cM A) : 0 < A := lt_of_lt_of_le I.cm0 I.cmA

theorem e_nonneg (I : DInput dims g h v pts cm cM A) : 0 ≤ I.e := F64.eerr_nonneg I.cm0 _ _

theorem e_ge (I : DInput dims g h v pts cm cM A) {i : Nat} (hi : i < dims.prod) (ho : g.occ i = false) : F64.eerr (h / v i) A dims.length ≤ I.e := by
  unfold e F64.eerr
  have := I.lo i hi ho
  have := I.cm0
  have := uu_pos
  gcongr

theorem e_small (I : DInput dims g h v pts cm cM A) : 8 * (dims.length:ℝ)^2 * I.e ≤ cm := by
  unfold e F64.eerr
  have hc := I.cm0
  have : 8 * (dims.length:ℝ)^2 * (70 * (dims.length:ℝ)^2 * uu * A^2 / cm) = (560 * (dims.length:ℝ)^4 * uu * A^2) / cm := by ring
  rw [this, div_le_iff₀ hc]
  have h0 : 0 ≤ (dims.length:ℝ)^4 * uu * A^2 := by have := uu_pos; positivity
  have := I.small
  nlinarith

theorem e_small' (I : DInput dims g h v pts cm cM A) : 32 * I.e ≤ cm := by
  have h1 := I.e_small
  have h2 := I.D2
  have h3 := I.e_nonneg
  have : (4:ℝ) ≤ (dims.length:ℝ)^2 := by nlinarith
  nlinarith

theorem uA_le (I : DInput dims g h v pts cm cM A) : 8 * uu * A ≤ I.e := by
  unfold e F64.eerr
  have hc := I.cm0
  have hA := I.Apos
  rw [le_div_iff₀ hc]
  have hu := uu_pos
  have h2 := I.D2
  have h4 : (4:ℝ) ≤ (dims.length:ℝ)^2 := by nlinarith
  have h5 : uu * (A * cm) ≤ uu * A^2 := by
    apply mul_le_mul_of_nonneg_left _ hu.le
    rw [sq]; exact mul_le_mul_of_nonneg_left I.cmA hA.le
  have h6 : 4 * (uu * A^2) ≤ (dims.length:ℝ)^2 * (uu * A^2) := mul_le_mul_of_nonneg_right h4 (by positivity)
  have : 0 ≤ uu * A^2 := by positivity
  nlinarith

/-- residual error -/
noncomputable def θ (I : DInput dims g h v pts cm cM A) : ℝ := 2 * dims.length * I.e
/-- excess of a local update -/
noncomputable def β (I : DInput dims g h v pts cm cM A) : ℝ := eps + I.e

theorem θ_nonneg (I : DInput dims g h v pts cm cM A) : 0 ≤ I.θ := by unfold θ; have := I.e_nonneg; positivity
theorem β_pos (I : DInput dims g h v pts cm cM A) : 0 < I.β := by unfold β; have := I.e_nonneg; have := eps_pos; positivity
theorem e_le_β (I : DInput dims g h v pts cm cM A) : I.e ≤ I.β := by unfold β; have := eps_pos; linarith
theorem β_small (I : DInput dims g h v pts cm cM A) : 3 * I.β ≤ cm := by
  unfold β
  have := I.e_small'
  have := I.margin
  have := I.cm0
  linarith
theorem θ_small (I : DInput dims g h v pts cm cM A) : 4 * I.θ ≤ cm := by
  unfold θ
  have h1 := I.e_small
  have h2 := I.D2
  have h3 := I.e_nonneg
  have : (dims.length:ℝ) ≤ (dims.length:ℝ)^2 := by nlinarith
  nlinarith

/-- **`solveEikonal` in doubles** as an approximate local solver -/
theorem eik (I : DInput dims g h v pts cm cM A) {g' : Grid (F64 R)} (hm : SameMap g g') (hg : GoodG (gridX g'))
    (hA : ∀ i (r : ℝ), tf g' i = (r : WithTop ℝ) → r ≤ A) {i : Nat} (hi : i < dims.prod) (ho : g.occ i = false) :
    GoodT (eikS g' i).1.1 ∧ Apr (h / v i) I.θ I.β (tf g' i) (mins (Shape.mk' dims) (tf g') i) (toT (eikS g' i).1.1) := by
  have hs : g'.shape = Shape.mk' dims := hm.shape.trans I.X.shape
  have ho' : (gridX g).occ i = false := ho
  have S := I.scale hi ho
  have hc := S.cpos
  have hcm := I.lo i hi ho
  rw [eikS_eq_solve I.X.fits I.X.two hs hi]
  set us := usableT (tf g' i) (mins (Shape.mk' dims) (tf g') i) with hus
  have hu := usable_eq hg i
  rw [gridX_usable, gridX_shape, hs] at hu
  change (usable g' i).map (·.1) = us.map fin at hu
  have hnum : ∀ t ∈ usable g' i, F64.IsNum t := by
    intro t ht
    have : t.1 ∈ (usable g' i).map (·.1) := List.mem_map_of_mem ht
    rw [hu, List.mem_map] at this
    obtain ⟨r, _, e⟩ := this
    exact (F64.isNum_of e.symm).1
  have hrv : (usable g' i).map F64.rv = us := by
    have : ((usable g' i).map (·.1)).map (fun x : XR => match x with | .fin r => r | _ => 0) = us := by
      rw [hu, List.map_map]; simp [Function.comp_def]
    rw [List.map_map] at this
    exact this
  have hle : ∀ t ∈ us, 0 ≤ t ∧ t ≤ A := by
    intro t ht
    rw [hus, mem_usableT] at ht
    have h1 := ht.1
    unfold mins at h1
    rw [List.mem_map] at h1
    obtain ⟨k, hk, he⟩ := h1
    obtain ⟨j, hj, hje⟩ := dimMin_attained (s := Shape.mk' dims) (T := tf g') (i := i) (k := k) (by rw [he]; exact WithTop.coe_ne_top)
    rw [he] at hje
    refine ⟨?_, hA j t hje.symm⟩
    have := (hg j).toT_nonneg
    have h2 : toT ((gridX g').value j) = (t : WithTop ℝ) := hje.symm
    rw [h2] at this
    exact_mod_cast this
  have hT : F64.Times A (usable g' i) := by
    intro t ht
    have : F64.rv t ∈ us := by rw [← hrv]; exact List.mem_map_of_mem ht
    exact ⟨hnum t ht, hle _ this⟩
  have hlen : (usable g' i).length ≤ dims.length := by
    unfold usable
    refine le_trans (List.length_filter_le _ _) ?_
    rw [List.length_map, List.length_range, hs]; exact le_refl _
  have e0 : solveEikonal g' i = solveList g'.leaf (g'.vel i) (usable g' i) := rfl
  have hleaf : (g'.leaf).1 = .fin h := by rw [hm.leaf]; exact I.X.leaf
  have hvel : (g'.vel i).1 = .fin (v i) := by
    rw [SameMap.vel_eq hm]; exact I.X.speed i hi ho'
  have hcβ := I.θ_small
  have hθ0 := I.θ_nonneg
  by_cases hne : usable g' i = []
  · have hx : solveEikonal g' i = Arith.inf := by rw [e0, hne]; rfl
    have hus0 : us = [] := by rw [← hrv, hne]; rfl
    rw [hx]
    have htop : toT ((Arith.inf : F64 R)).1 = ⊤ := rfl
    refine ⟨Or.inl rfl, ?_, ?_, ?_, ?_⟩
    · intro _; exact htop
    · intro u hu'; rw [htop] at hu'; exact absurd hu' (by simp)
    · intro Y hY hr
      exfalso
      rw [← residR_usable_eq hY.le, ← hus, hus0, residR_nil] at hr
      have : 0 < (h / v i)^2 := by positivity
      linarith
    · intro t ht1 ht2
      exfalso
      have : t ∈ us := by rw [hus, mem_usableT]; exact ⟨ht1, ht2⟩
      rw [hus0] at this; simp at this
  · obtain ⟨u, used, unused, x1, x2, x3, x4, x5, x6, x7⟩ := (F64.solveList64 S hleaf hvel hne hT hlen).ex
    rw [hrv] at x2
    rw [e0]
    set x := solveList g'.leaf (g'.vel i) (usable g' i) with hx
    have hperm : us.Perm (used ++ unused) := by rw [← x2]; exact (List.perm_insertionSort _ _).symm
    have he0 := F64.eerr_nonneg hc A dims.length
    have hee := I.e_ge hi ho
    set er := F64.eerr (h / v i) A dims.length with her
    have hx4 := abs_le.1 x4
    have hlu : (used.length : ℝ) ≤ dims.length := by
      have : used.length ≤ us.length := by rw [hperm.length_eq, List.length_append]; omega
      have h2 : us.length = (usable g' i).length := by rw [← hrv, List.length_map]
      exact_mod_cast (by omega : used.length ≤ dims.length)
    have hxT : toT x.1 = ((F64.rv x : ℝ) : WithTop ℝ) := by
      have : x.1 = .fin (F64.rv x) := x1
      rw [this]; rfl
    have hlow : (h / v i - I.θ)^2 ≤ residL (F64.rv x) (mins (Shape.mk' dims) (tf g') i) := by
      refine le_trans ?_ (residR_usable_le _ (tf g' i) _)
      rw [← hus, residR_perm _ hperm, residR_append]
      have h1 := residR_near hc he0 x5 x6 (s := F64.rv x) (by linarith)
      have h2 := residR_nonneg (F64.rv x) unused
      have h3 : 2 * (used.length:ℝ) * er * (h / v i) ≤ I.θ * (h / v i) := by
        unfold θ
        apply mul_le_mul_of_nonneg_right _ hc.le
        have h5 : (used.length:ℝ) * er ≤ dims.length * I.e := mul_le_mul hlu hee he0 (by positivity)
        linarith
      have h4 : I.θ * I.θ ≤ I.θ * (h / v i) := mul_le_mul_of_nonneg_left (by linarith) hθ0
      nlinarith
    refine ⟨Or.inr ⟨F64.rv x, ?_, x1⟩, ?_, ?_, ?_, ?_⟩
    · have : 0 < (h / v i - I.θ)^2 := by
        have : 0 < h / v i - I.θ := by linarith
        positivity
      have h2 : 0 < residR (F64.rv x) us := by
        rw [residR_perm _ hperm, residR_append]
        have h1 := residR_near hc he0 x5 x6 (s := F64.rv x) (by linarith)
        have h2 := residR_nonneg (F64.rv x) unused
        have h3 : 2 * (used.length:ℝ) * er * (h / v i) ≤ I.θ * (h / v i) := by
          unfold θ
          apply mul_le_mul_of_nonneg_right _ hc.le
          have h5 : (used.length:ℝ) * er ≤ dims.length * I.e := mul_le_mul hlu hee he0 (by positivity)
          linarith
        have h4 : I.θ * I.θ ≤ I.θ * (h / v i) := mul_le_mul_of_nonneg_left (by linarith) hθ0
        nlinarith
      obtain ⟨t, ht, htu⟩ := residR_pos h2
      linarith [(hle t ht).1]
    · intro hall
      exfalso
      have : us = [] := by
        rw [List.eq_nil_iff_forall_not_mem]
        intro t ht
        rw [hus, mem_usableT] at ht
        rcases hall _ ht.1 with h1 | h1
        · exact WithTop.coe_ne_top h1
        · exact absurd ht.2 (not_lt.2 h1)
      rw [this] at hperm
      have := hperm.length_eq
      simp at this
      exact x3 (List.eq_nil_of_length_eq_zero (by omega))
    · intro u' hu'
      rw [hxT] at hu'
      have : F64.rv x = u' := by exact_mod_cast hu'
      rw [← this]; exact hlow
    · intro Y hY hr
      rw [hxT]
      by_contra hcon
      have hlt : Y + I.β < F64.rv x := by
        have := not_le.1 hcon
        exact_mod_cast this
      rw [← residR_usable_eq hY.le, ← hus, residR_perm _ hperm, residR_append] at hr
      have h1 : residR Y unused = 0 := by
        apply residR_eq_zero
        intro t ht
        have := x7 t ht
        have h2 := I.e_nonneg
        unfold β at hlt
        linarith
      have h2 : Y < u := by
        unfold β at hlt
        have := eps_pos
        linarith
      have := residR_lt_sqs' hc h2 x5
      linarith
    · intro t ht1 ht2
      rw [hxT]
      have hmem : t ∈ used ++ unused := hperm.subset (by rw [hus, mem_usableT]; exact ⟨ht1, ht2⟩)
      have hb := I.e_le_β
      have : F64.rv x ≤ t + (h / v i + I.β) := by
        rcases List.mem_append.1 hmem with h1 | h1
        · have h2 := abs_le.1 (abs_sub_le_of_sqs hc.le x5 h1)
          linarith
        · have h2 := x7 t h1
          have : eps ≤ I.β := by unfold β; linarith [I.e_nonneg]
          linarith
      exact_mod_cast this

end DInput
end FMV
