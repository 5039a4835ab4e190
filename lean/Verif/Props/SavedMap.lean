import Verif.Props.Decimal
import Verif.Props.MoreLawsF64
/-
C113: arrival times on a map that was saved to a file and loaded again.
-/
namespace FMV.Decimal
open Console Text FMV.IO Spec Shape XR
variable {R : Rounding} {dims : List Nat} {g g0 g' : Grid (F64 R)} {h h' : ℝ} {v v' : Nat → ℝ} {pts : List Nat} {ρ σ : ℝ} {a b : Grid (F64 R)}

/-- a map that can be saved: the speeds are finite, and those of obstacles at most 2.22e-11 (usually 0) -/
def Savable (g : Grid (F64 R)) : Prop := ∀ i < g.size, ∃ r, (g.vel i).1 = .fin r ∧ (g.occ i = true → r ≤ 222 / 10^13)

/-- `g'` is what `loadMapFromText` makes of the file that `saveVelocities` writes for `g`, whatever the grid `g0` was before -/
def SavedLoaded (g g0 g' : Grid (F64 R)) : Prop :=
  ∃ junk, loadMapFromText (conv R) g.shape.ndims junk (some (saveVelocities fmtG g)) g0 = .returned 1 g'

theorem pow_length_le : ∀ {l : List Nat}, (∀ x ∈ l, 2 ≤ x) → 2 ^ l.length ≤ l.prod
  | [], _ => le_refl _
  | a :: l, h => by
    rw [List.length_cons, List.prod_cons, pow_succ, mul_comm]
    exact Nat.mul_le_mul (h a List.mem_cons_self) (pow_length_le fun x hx => h x (List.mem_cons_of_mem _ hx))

/-- what is loaded, completely -/
theorem loaded_all (hl : SavedLoaded g g0 g') (hshape : g.shape = Shape.mk' dims) (hf : Fits dims (2^31+1)) (two : ∀ x ∈ dims, 2 ≤ x) {leaf : ℝ} (hleaf : g.leaf.1 = .fin leaf) (hs : Savable g) :
    Fresh g' ∧ g'.shape = g.shape ∧ g'.leaf = reload g.leaf ∧ ∀ i < dims.prod, g'.vel i = reload (g.vel i) ∧ g'.occ i = g.occ i := by
  obtain ⟨junk, hl⟩ := hl
  have hd0 : dims ≠ [] := fun e => by have := hf.two; rw [e] at this; simp at this
  have hd : g.shape.dims = dims := by rw [hshape]; rfl
  have hn : g.shape.ndims = dims.length := by rw [hshape]; rfl
  have hsz0 : g.size = dims.prod := by show g.shape.ncells = _; rw [hshape]; exact mk'_ncells (hf.mono (by norm_num) : Fits dims (2^32))
  have hlt : ∀ d ∈ g.shape.dims, d < 2^32 := by
    intro d hd'
    rw [hd] at hd'
    have := lt_of_le_of_lt (Nat.le_of_dvd (List.prod_pos (fun x hx => hf.pos x hx)) (List.dvd_prod hd')) hf.lt
    omega
  have hnd : g.shape.ndims < 2^64 := by
    have h1 : 2 ^ dims.length ≤ dims.prod := pow_length_le two
    have h2 : dims.length < 2 ^ dims.length := Nat.lt_two_pow_self
    have h3 := hf.lt
    rw [hn]; omega
  have hpv : ∀ i < g.size, Prints fmtG (conv R) (g.vel i) (reload (g.vel i)) := fun i hi => by
    obtain ⟨r, hr, -⟩ := hs i hi
    exact prints_reload hr
  set g1 : Grid (F64 R) := { g0.resize g.shape.dims with leaf := reload g.leaf } with hg1
  have hsz : g1.size = g.size := by
    show (Shape.mk' g.shape.dims).ncells = g.shape.ncells
    rw [hd, ← hshape]
  obtain ⟨u, hu, -, hr⟩ := readCells_tokens (conv R) fmtG g.vel (fun i => reload (g.vel i)) (List.range g.size) [] (by simpa using hpv) (by simp) (ws := ['\t'])
    (by intro c hc; rw [List.mem_singleton.1 hc]; decide) junk.occ g1 []
  rw [List.append_nil, List.nil_append] at hr
  have e : loadMapFromText (conv R) g.shape.ndims junk (some (saveVelocities fmtG g)) g0 =
      .returned 1 ((withVel g1 (List.range g.size) u).setOccupiedCells ((List.range g.size).filter (fun i => Arith.lt (u i) (Arith.margin : F64 R)))) := by
    unfold saveVelocities
    rw [load_header fmtG (conv R) g g0 _ junk (reload g.leaf) _ (by rw [hd]; exact hd0) hlt hnd (prints_reload hleaf), if_neg (by simp)]
    simp only [← hg1, hsz]
    rw [show '\t' :: (List.range g.size).flatMap (fun i => '\n' :: fmtG (g.vel i)) = ['\t'] ++ (List.range g.size).flatMap (fun i => '\n' :: fmtG (g.vel i)) from rfl, hr]
  rw [e] at hl
  obtain ⟨-, rfl⟩ := LoadOut.returned.inj hl
  refine ⟨⟨fun i => ?_, fun i => ?_, fun i => ?_⟩, ?_, rfl, fun i hi => ?_⟩
  · show (withVel g1 (List.range g.size) u).value i = _
    rw [(withVel_value _ _ _ i).1]; rfl
  · show (withVel g1 (List.range g.size) u).state i = _
    rw [(withVel_value _ _ _ i).2]; rfl
  · show ((withVel g1 (List.range g.size) u).cells i).hValue = _
    unfold withVel
    dsimp only
    split <;> rfl
  · show Shape.mk' g.shape.dims = g.shape
    rw [hd, hshape]
  · have hi' : i < g.size := by rw [hsz0]; exact hi
    have hm : i ∈ List.range g.size := List.mem_range.2 hi'
    have hv : (withVel g1 (List.range g.size) u).vel i = reload (g.vel i) := by rw [withVel_vel _ _ _ hm, hu i hm]
    refine ⟨hv, ?_⟩
    obtain ⟨r, hr, ho⟩ := hs i hi'
    show Arith.lt ((withVel g1 (List.range g.size) u).vel i) Arith.margin = g.occ i
    rw [hv]
    cases hc : g.occ i with
    | true => exact C112_occupied _ hr (ho hc)
    | false =>
      refine C112_free _ hr ?_
      have : XR.lt (g.vel i).1 (.fin XR.eps) = false := hc
      rw [hr] at this
      simpa [XR.lt] using this

/-- the error of a number that was written and read -/
theorem reload_close {x : F64 R} {r : ℝ} (hx : x.1 = .fin r) (h0 : 0 < r) (hu : Usual r) : ∃ y, (reload x).1 = .fin y ∧ |y - r| ≤ 51 / 10^7 * r := by
  obtain ⟨u1, u2⟩ := dec_usual hu
  obtain ⟨y, e, he⟩ := rd_err R (le_refl |dec r|) (big_bounds.1.trans u1) (u2.trans big_bounds.2)
  refine ⟨y, by rw [reload_val hx, e], ?_⟩
  have h1 := dec_rel r
  have hd : 0 < dec r := by rw [dec_of_pos h0]; exact decPos_pos h0
  rw [abs_of_pos h0] at h1
  rw [abs_of_pos hd] at he
  have h2 := (abs_le.1 h1).2
  have h3 : uu * dec r ≤ 1 / 10^9 * r := by
    have : uu ≤ 1 / 10^10 := by unfold uu; norm_num
    have := uu_pos
    nlinarith
  calc |y - r| ≤ |y - dec r| + |dec r - r| := abs_sub_le _ _ _
    _ ≤ 1 / 10^9 * r + 5 / 10^6 * r := by linarith
    _ ≤ _ := by linarith

theorem usual_bounds {r : ℝ} (h1 : 1 / 10^20 ≤ r ∨ (2:ℝ)^(-200:ℤ) ≤ r) (h2 : r ≤ (2:ℝ)^(200:ℤ)) : Usual r := by
  have p : (2:ℝ)^(200:ℤ) ≤ (10:ℝ)^(300:ℤ) := by
    have h : (2:ℕ)^200 ≤ 10^300 := by decide +kernel
    have a := pow_nat 2 200
    have b := pow_nat 10 300
    rw [Nat.cast_ofNat, Nat.cast_ofNat] at a b
    rw [a, b]; exact Nat.cast_le.2 h
  have q : (10:ℝ)^(-300:ℤ) ≤ (2:ℝ)^(-200:ℤ) := by
    rw [zpow_neg, zpow_neg]
    exact inv_anti₀ (zpow_pos (by norm_num) _) p
  have q' : (10:ℝ)^(-300:ℤ) ≤ 1 / 10^20 := by
    have : (10:ℝ)^(-300:ℤ) ≤ (10:ℝ)^(-20:ℤ) := zpow_le_zpow_right₀ (by norm_num) (by norm_num)
    rwa [zpow_neg (10:ℝ) 20, show ((10:ℝ)^(20:ℤ))⁻¹ = 1 / 10^20 by norm_num] at this
  have hr : (10:ℝ)^(-300:ℤ) ≤ r := h1.elim (fun h => q'.trans h) (fun h => q.trans h)
  have : 0 < r := lt_of_lt_of_le (zpow_pos (by norm_num) _) hr
  exact ⟨by rwa [abs_of_pos this], by rw [abs_of_pos this]; exact h2.trans p⟩

/-- the crossing times of the loaded map -/
theorem loaded_ratio {x y : F64 R} {h v : ℝ} (hx : x.1 = .fin h) (hy : y.1 = .fin v) (h0 : 0 < h) (v0 : 0 < v) (hu : Usual h) (vu : Usual v) {h' v' : ℝ} (hx' : (reload x).1 = .fin h')
    (hy' : (reload y).1 = .fin v') : h' / v' ≤ (1 + 11 / 10^6) * (h / v) ∧ h / v ≤ (1 + 11 / 10^6) * (h' / v') := by
  obtain ⟨h1, e1, b1⟩ := reload_close hx h0 hu
  obtain ⟨v1, e2, b2⟩ := reload_close hy v0 vu
  rw [hx'] at e1; rw [hy'] at e2
  obtain rfl : h' = h1 := by injection e1
  obtain rfl : v' = v1 := by injection e2
  have c1 := abs_le.1 b1
  have c2 := abs_le.1 b2
  have v'0 : 0 < v' := by linarith
  have h'0 : 0 < h' := by linarith
  constructor
  · rw [div_le_iff₀ v'0]
    have : (1 + 11 / 10^6) * (h / v) * v' = (1 + 11 / 10^6) * h * (v' / v) := by field_simp
    rw [this]
    have : 1 - 51 / 10^7 ≤ v' / v := by rw [le_div_iff₀ v0]; linarith
    have : (1 + 11 / 10^6) * h * (1 - 51 / 10^7) ≤ (1 + 11 / 10^6) * h * (v' / v) := by gcongr
    linarith
  · rw [div_le_iff₀ v0]
    have : (1 + 11 / 10^6) * (h' / v') * v = (1 + 11 / 10^6) * h' * (v / v') := by field_simp
    rw [this]
    have : 1 / (1 + 51 / 10^7) ≤ v / v' := by rw [div_le_div_iff₀ (by norm_num) v'0]; linarith
    have : (1 + 11 / 10^6) * h' * (1 / (1 + 51 / 10^7)) ≤ (1 + 11 / 10^6) * h' * (v / v') := by gcongr
    have : h ≤ (1 + 11 / 10^6) * h' * (1 / (1 + 51 / 10^7)) := by norm_num; linarith
    linarith

/-- **C113**: saving a map to a text file and loading it again changes no arrival time by more than 11 parts in a million, apart from the relative errors of the two computations in doubles; the
same cells are reached.  Any solver classes may have computed the times. -/
theorem _root_.FMV.C113_saved_map (Ha : Computed64 dims g h v pts ρ a) (hs : Savable g) (hl : SavedLoaded g g0 g') (Hb : Computed64 dims g' h' v' pts σ b) (i : Nat) (hi : i < dims.prod) :
    ((a.value i).1 = .pinf ∧ (b.value i).1 = .pinf) ∨ ∃ r r' : ℝ, (a.value i).1 = .fin r ∧ (b.value i).1 = .fin r' ∧
      r' ≤ (1 + σ) / (1 - ρ) * ((1 + 11 / 10^6) * r) ∧ r ≤ (1 + ρ) / (1 - σ) * ((1 + 11 / 10^6) * r') := by
  obtain ⟨-, -, cm, cM, A, I, -⟩ := id Ha
  have X := I.X
  have X' := Hb.input
  have hleaf : g.leaf.1 = .fin h := X.leaf
  obtain ⟨-, -, el, ec⟩ := loaded_all hl X.shape X.fits X.two hleaf hs
  have hl' : (reload g.leaf).1 = .fin h' := el ▸ X'.leaf
  have hu : Usual h := usual_bounds (.inr I.h1) I.h2
  have key : ∀ j, j < dims.prod → g.occ j = false → h' / v' j ≤ (1 + 11 / 10^6) * (h / v j) ∧ h / v j ≤ (1 + 11 / 10^6) * (h' / v' j) := by
    intro j hj ho
    have hv : (g.vel j).1 = .fin (v j) := X.speed j hj ho
    have ho' : g'.occ j = false := (ec j hj).2.trans ho
    have hv' : (reload (g.vel j)).1 = .fin (v' j) := (ec j hj).1 ▸ X'.speed j hj ho'
    have hm : XR.eps ≤ v j := by
      have : XR.lt (g.vel j).1 (.fin XR.eps) = false := ho
      rw [hv] at this
      simpa [XR.lt] using this
    have he : (1:ℝ) / 10^20 ≤ XR.eps := by unfold XR.eps; norm_num
    exact loaded_ratio hleaf hv I.X.hpos (X.vpos hj ho) hu (usual_bounds (.inl (he.trans hm)) (I.v2 j hj ho)) hl' hv'
  have h1 := C106_slowdown Ha Hb (1 + 11 / 10^6) (by norm_num) (fun _ h => h) (fun j hj ho => ⟨(ec j hj).2.trans ho, (key j hj ho).1⟩) i hi
  have h2 := C106_slowdown Hb Ha (1 + 11 / 10^6) (by norm_num) (fun _ h => h) (fun j hj ho => by
    have ho' : g.occ j = false := (ec j hj).2 ▸ ho
    exact ⟨ho', (key j hj ho').2⟩) i hi
  rcases h1 with h1 | ⟨r, r', e1, e2, e3⟩ <;> rcases h2 with h2 | ⟨q', q, f1, f2, f3⟩
  · exact Or.inl ⟨h1, h2⟩
  · rw [h1] at f2; cases f2
  · rw [h2] at e2; cases e2
  · rw [e1] at f2; rw [e2] at f1
    obtain rfl : r = q := by injection f2
    obtain rfl : r' = q' := by injection f1
    exact Or.inr ⟨r, r', e1, e2, e3, f3⟩

/-- six digits are kept, so on such maps the loaded map is fit for the solvers whenever the saved one is -/
theorem _root_.FMV.C113_six (hs : Savable g) (hl : SavedLoaded g g0 g') {cm cM A : ℝ} (I : DInput dims g h v pts cm cM A) (h6 : Six g.leaf) (v6 : ∀ i < dims.prod, g.occ i = false → Six (g.vel i)) :
    Fresh g' ∧ DInput dims g' h v pts cm cM A := by
  have hleaf : g.leaf.1 = .fin h := I.X.leaf
  obtain ⟨hfr, es, el, ec⟩ := loaded_all hl I.X.shape I.X.fits I.X.two hleaf hs
  have hoc : ∀ i < dims.prod, g'.occ i = false → g.occ i = false := fun i hi ho => (ec i hi).2 ▸ ho
  have same : ∀ {x : F64 R}, Six x → reload x = x := fun {x} hx => by
    obtain ⟨d, h1, h2, h3⟩ := hx
    have := (C112_keeps x h1 h2 h3).2
    unfold reload; rw [this]
  refine ⟨hfr, ⟨⟨I.X.fits, I.X.two, es.trans I.X.shape, I.X.inside, I.X.hpos, ?_, fun i hi ho => ?_⟩, I.h1, I.h2, fun i hi ho => I.v2 i hi (hoc i hi ho), I.cm0, fun i hi ho => I.lo i hi (hoc i hi ho),
    fun i hi ho => I.hi i hi (hoc i hi ho), I.cA, I.cmA, I.A2, I.small, I.margin⟩⟩
  · show g'.leaf.1 = _
    rw [el, same h6]; exact hleaf
  · have ho := hoc i hi ho
    show (g'.vel i).1 = _
    rw [(ec i hi).1, same (v6 i hi ho)]
    exact I.X.speed i hi ho

/-- on a map whose numbers have at most six digits (`DInput` with a bound of `2 cM` per cell) both maps can be computed, and the times agree up to the two relative errors and 11 parts in a million -/
theorem _root_.FMV.C113_exists (hs : Savable g) (hl : SavedLoaded g g0 g') {cm cM : ℝ} (I : DInput dims g h v pts cm cM (2 * cM * dims.prod)) (hcc : cm ≤ cM) (hfr : Fresh g) (h6 : Six g.leaf)
    (v6 : ∀ i < dims.prod, g.occ i = false → Six (g.vel i)) (hρ : relErr dims.length cm (2 * cM * dims.prod) < 1) :
    (∃ a, Computed64 dims g h v pts (relErr dims.length cm (2 * cM * dims.prod)) a) ∧ ∃ b, Computed64 dims g' h v pts (relErr dims.length cm (2 * cM * dims.prod)) b := by
  have key : ∀ g : Grid (F64 R), Fresh g → DInput dims g h v pts cm cM (2 * cM * dims.prod) → ∃ a, Computed64 dims g h v pts (relErr dims.length cm (2 * cM * dims.prod)) a := by
    intro g hfr I
    obtain ⟨⟨n, s, hs, hd⟩, _⟩ := C27_doubles R dims.prod dims g pts ⟨I.X.fits, I.X.shape, I.X.inside⟩ Arith.one Arith.one
    exact ⟨s.g, hfr, hρ, cm, cM, _, I, hcc, le_refl _, .ddqm (le_refl _) hs hd⟩
  obtain ⟨hfr', I'⟩ := C113_six hs hl I h6 v6
  exact ⟨key g hfr I, key g' hfr' I'⟩

/-- non-vacuity: rounding to nearest; a 2x2 map with cells of size 1 and the speeds 1, 1, 0.5 and 0 (an obstacle) is saved, loaded into a grid of another shape, and both maps are computed -/
example : ∃ (g g0 g' : Grid (F64 Rounding.nearest)) (v : Nat → ℝ) (ρ : ℝ) (a b : Grid (F64 Rounding.nearest)), Savable g ∧ SavedLoaded g g0 g' ∧ g.occ 3 = true ∧
    Computed64 [2,2] g 1 v [0] ρ a ∧ Computed64 [2,2] g' 1 v [0] ρ b ∧ ρ < 1 / 20 := by
  have hhd : IsDouble ((1:ℝ)/2) := ⟨1, -1, by norm_num, by norm_num, by norm_num, by norm_num [zpow_neg]⟩
  let hf : F64 Rounding.nearest := ⟨.fin (1/2), fun _ h => by cases h; exact hhd⟩
  set g : Grid (F64 Rounding.nearest) := FIM.crossMap Arith.one Arith.one hf Arith.zero with hg
  let v : Nat → ℝ := fun i => if i = 2 then 1/2 else 1
  let g0 : Grid (F64 Rounding.nearest) := Grid.create [3,3,3] hf (0,0)
  have h4 : ∀ i, i < ([2,2] : List Nat).prod → i = 0 ∨ i = 1 ∨ i = 2 ∨ i = 3 := by
    intro i hi
    have : i < 4 := hi
    omega
  have me : XR.eps < 1/2 := by unfold XR.eps; norm_num
  have m1 : XR.eps < 1 := by linarith
  have m0 : 0 < XR.eps := XR.eps_pos
  have o3 : g.occ 3 = true := decide_eq_true m0
  have hsv : Savable g := by
    intro i hi
    rcases h4 i hi with rfl | rfl | rfl | rfl
    · exact ⟨1, rfl, fun h => absurd (of_decide_eq_true h) (not_lt.2 m1.le)⟩
    · exact ⟨1, rfl, fun h => absurd (of_decide_eq_true h) (not_lt.2 m1.le)⟩
    · exact ⟨1/2, rfl, fun h => absurd (of_decide_eq_true h) (not_lt.2 me.le)⟩
    · exact ⟨0, rfl, fun _ => by norm_num⟩
  have b1 : (2:ℝ)^(-200:ℤ) ≤ 1 := by
    have : (2:ℝ)^(-200:ℤ) ≤ (2:ℝ)^(0:ℤ) := zpow_le_zpow_right₀ (by norm_num) (by norm_num)
    simpa using this
  have b2 : (1:ℝ) ≤ (2:ℝ)^(200:ℤ) := by
    have : (2:ℝ)^(0:ℤ) ≤ (2:ℝ)^(200:ℤ) := zpow_le_zpow_right₀ (by norm_num) (by norm_num)
    simpa using this
  have b3 : (32:ℝ) ≤ (2:ℝ)^(300:ℤ) := by
    have : (2:ℝ)^(5:ℤ) ≤ (2:ℝ)^(300:ℤ) := zpow_le_zpow_right₀ (by norm_num) (by norm_num)
    refine le_trans ?_ this
    norm_num
  have b4 : (1:ℝ)/2 ≤ (2:ℝ)^(200:ℤ) := by linarith
  have X : XInput [2,2] (gridX g) 1 v [0] := by
    refine ⟨⟨by decide, by decide, by decide⟩, by decide, rfl, by decide, one_pos, rfl, ?_⟩
    intro i hi ho
    rcases h4 i hi with rfl | rfl | rfl | rfl
    · show XR.fin 1 = .fin (if 0 = 2 then 1/2 else 1); norm_num
    · show XR.fin 1 = .fin (if 1 = 2 then 1/2 else 1); norm_num
    · show XR.fin (1/2) = .fin (if 2 = 2 then 1/2 else 1); norm_num
    · have : g.occ 3 = false := ho
      rw [o3] at this; cases this
  have vb : ∀ i, v i = 1 / 2 ∨ v i = 1 := fun i => by
    show (if i = 2 then (1:ℝ)/2 else 1) = 1/2 ∨ (if i = 2 then (1:ℝ)/2 else 1) = 1
    by_cases h : i = 2
    · rw [if_pos h]; exact .inl rfl
    · rw [if_neg h]; exact .inr rfl
  have I : DInput [2,2] g 1 v [0] 1 2 (2 * 2 * (([2,2] : List Nat).prod : ℝ)) := by
    have ep : (([2,2] : List Nat).prod : ℝ) = 4 := by norm_num
    rw [ep]
    refine ⟨X, b1, b2, fun i _ _ => ?_, one_pos, fun i _ _ => ?_, fun i _ _ => ?_, by norm_num, by norm_num, ?_, ?_, ?_⟩
    · rcases vb i with e | e <;> rw [e] <;> assumption
    · rcases vb i with e | e <;> rw [e] <;> norm_num
    · rcases vb i with e | e <;> rw [e] <;> norm_num
    · exact le_trans (by norm_num) b3
    · show 640 * ((2:ℕ):ℝ)^4 * uu * (2 * 2 * 4)^2 ≤ 1^2
      unfold uu; norm_num
    · unfold XR.eps; norm_num
  have u : ∀ r : ℝ, 1 / 10^20 ≤ r → r ≤ 10^20 → Usual r := fun r a b => by
    have : 0 < r := lt_of_lt_of_le (by norm_num) a
    exact usual_of (by rwa [abs_of_pos this]) (by rwa [abs_of_pos this])
  have s1 : Six (Arith.one : F64 Rounding.nearest) := ⟨1, ⟨1, 0, by norm_num, by norm_num⟩, .inr (u _ (by norm_num) (by norm_num)), (Rounding.nearest.exact 1 IsDouble.one).symm⟩
  have s2 : Six hf := ⟨1/2, ⟨5, -1, by norm_num, by norm_num [zpow_neg]⟩, .inr (u _ (by norm_num) (by norm_num)), (Rounding.nearest.exact _ hhd).symm⟩
  have hrel : relErr 2 1 (2 * 2 * (([2,2] : List Nat).prod : ℝ)) < 1 / 20 := by
    have ep : (([2,2] : List Nat).prod : ℝ) = 4 := by norm_num
    rw [ep]; unfold relErr; norm_num
  have hld : ∃ g', SavedLoaded g g0 g' := by
    obtain ⟨g', e, -⟩ := C112_map g g0 ⟨Arith.zero, 0, fun _ => 0, Arith.zero⟩ rfl (show ([2,2] : List Nat) ≠ [] by decide) (show ∀ d ∈ ([2,2] : List Nat), d < 2^32 by decide) (show 2 < 2^64 by norm_num) 1 (fun i => if i = 2 then 1/2 else if i = 3 then 0 else 1) rfl (by
      intro i hi
      rcases h4 i hi with rfl | rfl | rfl | rfl
      · show XR.fin 1 = .fin _; norm_num
      · show XR.fin 1 = .fin _; norm_num
      · show XR.fin (1/2) = .fin _; norm_num
      · show XR.fin 0 = .fin _; norm_num)
    exact ⟨g', _, e⟩
  obtain ⟨g', hl⟩ := hld
  obtain ⟨⟨a, ha⟩, b, hb⟩ := C113_exists hsv hl I (by norm_num) ⟨fun _ => rfl, fun _ => rfl, fun _ => rfl⟩ s1 (fun i hi ho => by
    rcases h4 i hi with rfl | rfl | rfl | rfl
    · exact s1
    · exact s1
    · exact s2
    · rw [o3] at ho; cases ho) (lt_trans hrel (by norm_num))
  exact ⟨g, g0, g', v, _, a, b, hsv, hl, o3, ha, hb, hrel⟩

end FMV.Decimal
