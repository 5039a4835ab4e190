import Verif.Props.AgreeF64
import Verif.Props.Symmetry
import Verif.Props.Triangle
import Verif.Props.OpenMap
/-! C103: the laws of arrival times proved in exact arithmetic (C64, C65, C67, C75, C81, C82, C83) hold for the results of all solvers in doubles, up to their relative errors. -/
set_option linter.unusedSectionVars false
set_option linter.unusedVariables false
namespace FMV
open Spec Shape XR FMM Off
variable {R R' : Rounding}

/-- `Computed64 dims g h v pts ρ a`: `a` is the result, in doubles, of a finished run of one of the solvers on the fresh grid `g` (leaf size `h`, speeds `v`) from `pts`, and
`ρ < 1` is the relative error allowed for it. -/
def Computed64 (dims : List Nat) (g : Grid (F64 R)) (h : ℝ) (v : Nat → ℝ) (pts : List Nat) (ρ : ℝ) (a : Grid (F64 R)) : Prop :=
  Fresh g ∧ ρ < 1 ∧ ∃ cm cM A : ℝ, DInput dims g h v pts cm cM A ∧ cm ≤ cM ∧ 2 * cM * dims.prod ≤ A ∧ Finished64 dims g pts cm cM A ρ a

section laws
variable {dims dims' : List Nat} {g : Grid (F64 R)} {g' : Grid (F64 R')} {h h' : ℝ} {v v' : Nat → ℝ} {pts pts' : List Nat} {ρ σ τ : ℝ} {a : Grid (F64 R)} {b : Grid (F64 R')}

theorem relErr_nonneg (D : Nat) {cm A : ℝ} (h : 0 < cm) : 0 ≤ relErr D cm A := by unfold relErr; positivity

theorem Finished64.nonneg {cm cM A : ℝ} (I : DInput dims g h v pts cm cM A) (hf : Finished64 dims g pts cm cM A ρ a) : 0 ≤ ρ := by
  have h0 := I.cm0
  have h1 := relErr_nonneg dims.length (A := A) h0
  have hA : 0 < A := lt_of_lt_of_le h0 I.cmA
  cases hf with
  | fmm => exact h1
  | fsm => exact h1
  | lsm => exact h1
  | ddqm => exact h1
  | ufmm _ _ hq =>
    have := hq.inc0
    unfold queueErr; positivity
  | fim _ he => unfold stopErr; positivity
  | gmm _ hd =>
    have := hd.1
    have : (0:ℝ) ≤ A / 2^49 := by positivity
    have hd0 := lt_of_le_of_lt this hd.1
    unfold stepErr; positivity

theorem Computed64.input (H : Computed64 dims g h v pts ρ a) : XInput dims (gridX g) h v pts := by
  obtain ⟨_, _, _, _, _, I, _⟩ := H
  exact I.X

theorem Computed64.nonneg (H : Computed64 dims g h v pts ρ a) : 0 ≤ ρ := by
  obtain ⟨_, _, _, _, _, I, _, _, hf⟩ := H
  exact hf.nonneg I

/-- What the laws use: the exact solution is not negative, and it is infinite where the result is, or else the result is within the relative error. -/
theorem Computed64.close (H : Computed64 dims g h v pts ρ a) {U : Nat → WithTop ℝ} (hU : H.input.problem.IsSolution U) {i : Nat} (hi : i < dims.prod) :
    (U i = ⊤ ∧ (a.value i).1 = .pinf) ∨ ∃ e r : ℝ, U i = (e : WithTop ℝ) ∧ (a.value i).1 = .fin r ∧ 0 ≤ e ∧ (1 - ρ) * e ≤ r ∧ r ≤ (1 + ρ) * e := by
  obtain ⟨hfr, hρ, cm, cM, A, I, hcc, hA, hf⟩ := H
  have hnn : 0 ≤ U i := by
    obtain ⟨W, hW, hWn, huniq⟩ := C17_unique_solution I.X.problem I.X.wellPosed
    rw [huniq U hU i hi]; exact hWn i hi
  rcases C99_accuracy I hcc hA hfr hf U hU i hi with h1 | ⟨e, r, h1, h2, h3, h4⟩
  · exact .inl h1
  · rw [h1] at hnn
    exact .inr ⟨e, r, h1, h2, by exact_mod_cast hnn, h3, h4⟩

/-- transport of an upper bound `e' ≤ e` between the exact times to the computed ones -/
theorem law_le {e e' r r' : ℝ} (hρ : ρ < 1) (hσ : 0 ≤ σ) (he : e' ≤ e) (h1 : (1 - ρ) * e ≤ r) (h2 : r' ≤ (1 + σ) * e') : r' ≤ (1 + σ) / (1 - ρ) * r := by
  have h3 : 0 < 1 - ρ := by linarith
  have h4 : e ≤ r / (1 - ρ) := by rw [le_div_iff₀ h3]; linarith
  calc r' ≤ (1 + σ) * e' := h2
    _ ≤ (1 + σ) * (r / (1 - ρ)) := mul_le_mul_of_nonneg_left (by linarith) (by linarith)
    _ = _ := by ring

/-- **C103**, easier maps (C64): if the second map has all the starts of the first, is free where the first is, as fast there, and has cells that are not larger, then its computed times are at
most `(1 + σ) / (1 - ρ)` times those of the first. -/
theorem C103_easier_never_slower (Ha : Computed64 dims g h v pts ρ a) (Hb : Computed64 dims g' h' v' pts' σ b)
    (hpts : ∀ p ∈ pts, p ∈ pts') (hmap : ∀ i, i < dims.prod → g.occ i = false → g'.occ i = false ∧ v i ≤ v' i) (hh : h' ≤ h) (i : Nat) (hi : i < dims.prod) :
    (a.value i).1 = pinf ∨ ∃ r r' : ℝ, (a.value i).1 = fin r ∧ (b.value i).1 = fin r' ∧ r' ≤ (1 + σ) / (1 - ρ) * r := by
  have X := Ha.input
  have X' := Hb.input
  obtain ⟨U, hU, hU0, _⟩ := C17_unique_solution X.problem X.wellPosed
  obtain ⟨V, hV, hV0, _⟩ := C17_unique_solution X'.problem X'.wellPosed
  have hUV : V i ≤ U i := by
    apply ExSol.mono X.fits (fun j hj _ ho => X'.cpos hj (by simpa using ho)) (fun j hj _ ho => X.cpos hj (by simpa using ho)) (X'.exSol hV) (X.exSol hU) hU0
      (fun j _ hj => hpts j hj) ?_ ?_ i hi
    · intro j hj ho
      by_contra hc
      have := (hmap j hj (by simpa using hc)).1
      rw [show g'.occ j = true from ho] at this; cases this
    · intro j hj ho
      have hf : g.occ j = false := by simpa using ho
      have h1 := X.vpos hj hf
      exact div_le_div₀ X.hpos.le hh h1 (hmap j hj hf).2
  rcases Ha.close hU hi with ⟨_, h1⟩ | ⟨e, r, e1, e2, e0, e3, e4⟩
  · exact Or.inl h1
  · rcases Hb.close hV hi with ⟨h1, _⟩ | ⟨e', r', f1, f2, f0, f3, f4⟩
    · rw [h1, e1] at hUV; exact absurd (top_le_iff.1 hUV) WithTop.coe_ne_top
    · rw [e1, f1] at hUV
      exact Or.inr ⟨r, r', e2, f2, law_le Ha.2.1 Hb.nonneg (WithTop.coe_le_coe.1 hUV) e3 f4⟩

/-- **C103**, units (C65): if all crossing times are multiplied by `k`, the computed times are multiplied by `k`, up to the two relative errors. -/
theorem C103_units (Ha : Computed64 dims g h v pts ρ a) (Hb : Computed64 dims g' h' v' pts σ b) (k : ℝ) (hk : 0 < k)
    (hocc : ∀ i, i < dims.prod → g'.occ i = g.occ i) (hc : ∀ i, i < dims.prod → g.occ i = false → h' / v' i = k * (h / v i)) (i : Nat) (hi : i < dims.prod) :
    ((a.value i).1 = pinf ∧ (b.value i).1 = pinf) ∨
    ∃ r r' : ℝ, (a.value i).1 = fin r ∧ (b.value i).1 = fin r' ∧ r' ≤ (1 + σ) / (1 - ρ) * (k * r) ∧ k * r ≤ (1 + ρ) / (1 - σ) * r' := by
  have X := Ha.input
  have X' := Hb.input
  obtain ⟨U, hU, hU0, _⟩ := C17_unique_solution X.problem X.wellPosed
  obtain ⟨V, hV, hV0, _⟩ := C17_unique_solution X'.problem X'.wellPosed
  have hUV := exact_scale X X' hk hocc hc hU hV i hi
  rcases Ha.close hU hi with ⟨h0, h1⟩ | ⟨e, r, e1, e2, e0, e3, e4⟩ <;> rcases Hb.close hV hi with ⟨h2, h3⟩ | ⟨e', r', f1, f2, f0, f3, f4⟩
  · exact Or.inl ⟨h1, h3⟩
  · rw [h0, f1] at hUV; cases hUV
  · rw [h2, e1] at hUV; cases hUV
  · rw [e1, f1, scl_coe] at hUV
    have : e' = k * e := WithTop.coe_eq_coe.1 hUV
    subst this
    have c1 := mul_le_mul_of_nonneg_left e3 hk.le
    have c2 := mul_le_mul_of_nonneg_left e4 hk.le
    exact Or.inr ⟨r, r', e2, f2, law_le Ha.2.1 Hb.nonneg (le_refl (k * e)) (by linarith) f4, law_le Hb.2.1 Ha.nonneg (le_refl (k * e)) f3 (by linarith)⟩

/-- **C103**, symmetry (C67): on a mirrored and/or transposed map the computed times are the moved ones, up to the two relative errors. -/
theorem C103_symmetry (Ha : Computed64 dims g h v pts ρ a) (Hb : Computed64 dims' g' h v' pts' σ b) (p : Nat → Nat) (flip : Nat → Bool) (c : Nat → Nat)
    (M : Moves dims dims' p flip c) (hocc : ∀ i, i < dims.prod → g'.occ (c i) = g.occ i) (hv : ∀ i, i < dims.prod → g.occ i = false → v' (c i) = v i)
    (hpts : ∀ i, i < dims.prod → (c i ∈ pts' ↔ i ∈ pts)) (i : Nat) (hi : i < dims.prod) :
    ((a.value i).1 = pinf ∧ (b.value (c i)).1 = pinf) ∨
    ∃ r r' : ℝ, (a.value i).1 = fin r ∧ (b.value (c i)).1 = fin r' ∧ r' ≤ (1 + σ) / (1 - ρ) * r ∧ r ≤ (1 + ρ) / (1 - σ) * r' := by
  have X := Ha.input
  have X' := Hb.input
  obtain ⟨U, hU, _⟩ := C17_unique_solution X.problem X.wellPosed
  obtain ⟨V, hV, _⟩ := C17_unique_solution X'.problem X'.wellPosed
  have hi' := (M.cell i hi).1
  have E : ExSol dims (fun i => h / v i) (fun i => i ∈ pts) (fun i => (gridX g).occ i = true) (fun i => V (c i)) :=
    M.exSol X.fits X'.fits (X'.exSol hV) hpts (fun i hi => by show g'.occ (c i) = true ↔ g.occ i = true; rw [hocc i hi]) (fun i hi ho => by
      show h / v' (c i) = h / v i
      rw [hv i hi (by simpa using ho)])
  have hc : ∀ j, j < dims.prod → ¬ j ∈ pts → ¬ ((gridX g).occ j = true) → 0 < h / v j := fun j hj _ ho => X.cpos hj (by simpa using ho)
  have hUV : V (c i) = U i := le_antisymm (ExSol.le X.fits hc E (X.exSol hU) i hi) (ExSol.le X.fits hc (X.exSol hU) E i hi)
  rcases Ha.close hU hi with ⟨h0, h1⟩ | ⟨e, r, e1, e2, e0, e3, e4⟩ <;> rcases Hb.close hV hi' with ⟨h2, h3⟩ | ⟨e', r', f1, f2, f0, f3, f4⟩
  · exact Or.inl ⟨h1, h3⟩
  · rw [h0, f1] at hUV; cases hUV
  · rw [h2, e1] at hUV; cases hUV
  · rw [e1, f1] at hUV
    obtain rfl : e' = e := WithTop.coe_injective hUV
    exact Or.inr ⟨r, r', e2, f2, law_le Ha.2.1 Hb.nonneg le_rfl e3 f4, law_le Hb.2.1 Ha.nonneg le_rfl f3 e4⟩

/-- **C103**, starting points as a set (C81): two runs on the same map, from lists of starting points with the same members, agree up to their relative errors. -/
theorem C103_starts_as_set {b : Grid (F64 R)} (Ha : Computed64 dims g h v pts ρ a) (Hb : Computed64 dims g h v pts' σ b) (hsame : ∀ i, i ∈ pts ↔ i ∈ pts')
    (i : Nat) (hi : i < dims.prod) :
    ((a.value i).1 = pinf ∧ (b.value i).1 = pinf) ∨
    ∃ r r' : ℝ, (a.value i).1 = fin r ∧ (b.value i).1 = fin r' ∧ r' ≤ (1 + σ) / (1 - ρ) * r ∧ r ≤ (1 + ρ) / (1 - σ) * r' := by
  have h1 := C103_easier_never_slower Ha Hb (fun p hp => (hsame p).1 hp) (fun _ _ ho => ⟨ho, le_refl _⟩) (le_refl _) i hi
  have h2 := C103_easier_never_slower Hb Ha (fun p hp => (hsame p).2 hp) (fun _ _ ho => ⟨ho, le_refl _⟩) (le_refl _) i hi
  rcases h1 with h1 | ⟨r, r', e1, e2, e3⟩
  · rcases h2 with h2 | ⟨r, r', f1, f2, _⟩
    · exact Or.inl ⟨h1, h2⟩
    · rw [h1] at f2; cases f2
  · rcases h2 with h2 | ⟨s', s, f1, f2, f3⟩
    · rw [h2] at e2; cases e2
    · rw [e1] at f2; rw [e2] at f1
      cases f2; cases f1
      exact Or.inr ⟨_, _, e1, e2, e3, f3⟩

/-- **C103**, way points (C82): the computed time from the starting points to `i` is at most `(1 + τ) / (1 - ρ)` times the computed time from them to `w`, plus `(1 + τ) / (1 - σ)` times the one
from `w` to `i`. -/
theorem C103_way_points {b c : Grid (F64 R)} (w : Nat) (hw : w < dims.prod) (Ha : Computed64 dims g h v pts ρ a) (Hb : Computed64 dims g h v [w] σ b)
    (Hc : Computed64 dims g h v pts τ c) (i : Nat) (hi : i < dims.prod) :
    (a.value w).1 = pinf ∨ (b.value i).1 = pinf ∨
    ∃ x y z : ℝ, (a.value w).1 = fin x ∧ (b.value i).1 = fin y ∧ (c.value i).1 = fin z ∧ z ≤ (1 + τ) / (1 - ρ) * x + (1 + τ) / (1 - σ) * y := by
  have X := Ha.input
  have X' := Hb.input
  obtain ⟨U, hU, _⟩ := C17_unique_solution X.problem X.wellPosed
  obtain ⟨V, hV, _⟩ := C17_unique_solution X'.problem X'.wellPosed
  have EV : ExSol dims (fun i => h / v i) (fun i => i = w) (fun i => (gridX g).occ i = true) V := by
    have := X'.exSol hV
    simpa [List.mem_singleton] using this
  have tri := ExSol.triangle X.fits X.cpos' (X.exSol hU) EV i hi
  rcases Ha.close hU hw with ⟨_, h1⟩ | ⟨e, x, e1, e2, e0, e3, e4⟩
  · exact Or.inl h1
  rcases Hb.close hV hi with ⟨_, h1⟩ | ⟨e', y, f1, f2, f0, f3, f4⟩
  · exact Or.inr (Or.inl h1)
  rw [e1, f1, ← WithTop.coe_add] at tri
  rcases Hc.close hU hi with ⟨h1, _⟩ | ⟨e'', z, g1, g2, g0, g3, g4⟩
  · rw [h1] at tri; exact absurd (top_le_iff.1 tri) WithTop.coe_ne_top
  · rw [g1] at tri
    have := WithTop.coe_le_coe.1 tri
    have k1 := law_le (σ := τ) Ha.2.1 Hc.nonneg (le_refl e) e3 (le_refl _)
    have k2 := law_le (σ := τ) Hb.2.1 Hc.nonneg (le_refl e') f3 (le_refl _)
    have k3 : (1 + τ) * e'' ≤ (1 + τ) * (e + e') := mul_le_mul_of_nonneg_left this (by have := Hc.nonneg; linarith)
    exact Or.inr (Or.inr ⟨x, y, z, e2, f2, g2, by linarith⟩)

/-- **C103**, at most the best start (C83). -/
theorem C103_at_most_best {b : Grid (F64 R)} (Ha : Computed64 dims g h v pts ρ a) (p : Nat) (hp : p ∈ pts) (Hb : Computed64 dims g h v [p] σ b) (i : Nat) (hi : i < dims.prod) :
    (b.value i).1 = pinf ∨ ∃ r t : ℝ, (b.value i).1 = fin r ∧ (a.value i).1 = fin t ∧ t ≤ (1 + ρ) / (1 - σ) * r :=
  C103_easier_never_slower Hb Ha (fun q hq => by rw [List.mem_singleton] at hq; rw [hq]; exact hp) (fun _ _ ho => ⟨ho, le_refl _⟩) (le_refl _) i hi

/-- **C103**, and not much less (C83): for every cell that is reached there is a start from which alone the computed time is at most `√n (1 + σ) / (1 - ρ)` times as large. -/
theorem C103_best_alone (Ha : Computed64 dims g h v pts ρ a) (i : Nat) (hi : i < dims.prod) (t : ℝ) (ht : (a.value i).1 = fin t) :
    ∃ p ∈ pts, ∀ σ b, Computed64 dims g h v [p] σ b → ∃ r : ℝ, (b.value i).1 = fin r ∧ r ≤ (1 + σ) / (1 - ρ) * (Real.sqrt dims.length * t) := by
  have X := Ha.input
  obtain ⟨U, hU, _⟩ := C17_unique_solution X.problem X.wellPosed
  rcases Ha.close hU hi with ⟨_, h1⟩ | ⟨e, t', e1, e2, e0, e3, e4⟩
  · rw [h1] at ht; cases ht
  rw [ht] at e2
  have : t = t' := by injection e2
  subst this
  obtain ⟨p, hp, X', hle⟩ := exact_one_of X hU hi e1
  refine ⟨p, hp, fun σ b Hb => ?_⟩
  obtain ⟨V, hV, _⟩ := C17_unique_solution Hb.input.problem Hb.input.wellPosed
  have h2 := hle V hV
  rcases Hb.close hV hi with ⟨h3, _⟩ | ⟨e', r, f1, f2, f0, f3, f4⟩
  · rw [h3] at h2; exact absurd (top_le_iff.1 h2) WithTop.coe_ne_top
  · rw [f1] at h2
    have h2 := WithTop.coe_le_coe.1 h2
    have h3 := mul_le_mul_of_nonneg_left e3 (Real.sqrt_nonneg dims.length)
    exact ⟨r, f2, law_le Ha.2.1 Hb.nonneg h2 (by linarith) f4⟩

/-- **C103**, open maps (C75): without obstacles, with one speed and one start, the computed time grows with the offsets from the start, up to the two relative errors. -/
theorem C103_offsets {s s' : Nat} {v0 : ℝ} (Ha : Computed64 dims g h v [s] ρ a) (Hb : Computed64 dims' g' h v' [s'] σ b) (hlen : dims'.length = dims.length)
    (ho : Open dims (gridX g) v v0) (ho' : Open dims' (gridX g') v' v0) (i i' : Nat) (hi : i < dims.prod)
    (hi' : i' < dims'.prod) (hoff : ∀ k, k < dims.length → |coordZ dims i k - coordZ dims s k| ≤ |coordZ dims' i' k - coordZ dims' s' k|) :
    ∃ r r' : ℝ, (a.value i).1 = fin r ∧ (b.value i').1 = fin r' ∧ r ≤ (1 + ρ) / (1 - σ) * r' := by
  have X := Ha.input
  have X' := Hb.input
  obtain ⟨U, hU, _⟩ := C17_unique_solution X.problem X.wellPosed
  obtain ⟨V, hV, _⟩ := C17_unique_solution X'.problem X'.wellPosed
  have hUV := exact_offsets X X' hlen ho ho' i i' hi hi' hoff hU hV
  rcases Ha.close hU hi with ⟨h0, h1⟩ | ⟨e, r, e1, e2, e0, e3, e4⟩
  · rw [(exact_open X ho hU hi).2] at h0; exact absurd h0 WithTop.coe_ne_top
  rcases Hb.close hV hi' with ⟨h2, h3⟩ | ⟨e', r', f1, f2, f0, f3, f4⟩
  · rw [(exact_open X' ho' hV hi').2] at h2; exact absurd h2 WithTop.coe_ne_top
  rw [e1, f1] at hUV
  exact ⟨r, r', e2, f2, law_le Hb.2.1 Ha.nonneg (WithTop.coe_le_coe.1 hUV) f3 e4⟩

/-- **C103**, reciprocity (C75): on an open map the computed time from `s` to `t` is that from `t` to `s`, up to the two relative errors. -/
theorem C103_reciprocal {b : Grid (F64 R)} {s t : Nat} {v0 : ℝ} (Ha : Computed64 dims g h v [s] ρ a) (Hb : Computed64 dims g h v [t] σ b) (ho : Open dims (gridX g) v v0) :
    ∃ r r' : ℝ, (a.value t).1 = fin r ∧ (b.value s).1 = fin r' ∧ r ≤ (1 + ρ) / (1 - σ) * r' ∧ r' ≤ (1 + σ) / (1 - ρ) * r := by
  have hs : s < dims.prod := Ha.input.inside s (by simp)
  have ht : t < dims.prod := Hb.input.inside t (by simp)
  obtain ⟨r, r', h1, h2, h3⟩ := C103_offsets Ha Hb rfl ho ho t s ht hs (fun k _ => by rw [abs_sub_comm])
  obtain ⟨q', q, k1, k2, k3⟩ := C103_offsets Hb Ha rfl ho ho s t hs ht (fun k _ => by rw [abs_sub_comm])
  rw [h2] at k1
  rw [h1] at k2
  have e1 : r' = q' := by injection k1
  have e2 : r = q := by injection k2
  subst e1 e2
  exact ⟨r, r', h1, h2, h3, k3⟩
end laws

/-- non-vacuity: rounding to nearest, the empty 2x2 map with unit cells: results from start 0, from start 3 and from both, with an allowed error below 2 percent -/
theorem Computed64.exists_small : ∃ (g a b c : Grid (F64 Rounding.nearest)) (ρ : ℝ), Computed64 [2,2] g 1 (fun _ => 1) [0] ρ a ∧ Computed64 [2,2] g 1 (fun _ => 1) [3] ρ b ∧
    Computed64 [2,2] g 1 (fun _ => 1) [0,3] ρ c ∧ ρ < 1/50 ∧ Open [2,2] (gridX g) (fun _ => 1) 1 ∧
    Moves [2,2] [2,2] (fun k => 1 - k) (fun _ => false) (fun i => i / 2 + 2 * (i % 2)) := by
  set g : Grid (F64 Rounding.nearest) := FIM.crossMap Arith.one Arith.one Arith.one Arith.one with hg
  have h4 : ∀ i, i < ([2,2] : List Nat).prod → i = 0 ∨ i = 1 ∨ i = 2 ∨ i = 3 := by
    intro i hi
    have : i < 4 := hi
    omega
  have X : ∀ pts, pts ≠ [] → (∀ p ∈ pts, p < 4) → XInput [2,2] (gridX g) 1 (fun _ => 1) pts := by
    intro pts h1 h2
    refine ⟨⟨by decide, by decide, by decide⟩, by decide, rfl, h2, one_pos, rfl, ?_⟩
    intro i hi ho
    rcases h4 i hi with rfl | rfl | rfl | rfl <;> rfl
  have b1 : (2:ℝ)^(-200:ℤ) ≤ 1 := by
    have : (2:ℝ)^(-200:ℤ) ≤ (2:ℝ)^(0:ℤ) := zpow_le_zpow_right₀ (by norm_num) (by norm_num)
    simpa using this
  have b2 : (1:ℝ) ≤ (2:ℝ)^(200:ℤ) := by
    have : (2:ℝ)^(0:ℤ) ≤ (2:ℝ)^(200:ℤ) := zpow_le_zpow_right₀ (by norm_num) (by norm_num)
    simpa using this
  have b3 : (32:ℝ) ≤ (2:ℝ)^(300:ℤ) := by
    have : (2:ℝ)^(5:ℤ) ≤ (2:ℝ)^(300:ℤ) := zpow_le_zpow_right₀ (by norm_num) (by norm_num)
    refine le_trans ?_ this
    norm_num
  have hrel : relErr 2 1 32 < 1 / 50 := by unfold relErr; norm_num
  have key : ∀ pts, pts ≠ [] → (∀ p ∈ pts, p < 4) → ∃ a, Computed64 [2,2] g 1 (fun _ => 1) pts (relErr 2 1 32) a := by
    intro pts h1 h2
    have I : DInput [2,2] g 1 (fun _ => 1) pts 1 1 32 := by
      refine ⟨X pts h1 h2, b1, b2, fun _ _ _ => b2, one_pos, fun _ _ _ => by norm_num, fun _ _ _ => by norm_num, by norm_num, by norm_num, b3, ?_, ?_⟩
      · show 640 * ((2:ℕ):ℝ)^4 * uu * 32^2 ≤ 1^2
        unfold uu; norm_num
      · unfold XR.eps; norm_num
    obtain ⟨⟨n, s, hs, hd⟩, _⟩ := C27_doubles Rounding.nearest noGoal [2,2] g pts ⟨I.X.fits, rfl, I.X.inside⟩ Arith.one Arith.one
    exact ⟨s.g, ⟨fun _ => rfl, fun _ => rfl, fun _ => rfl⟩, by linarith, 1, 1, 32, I, le_refl _, by norm_num, .ddqm (by decide) hs hd⟩
  obtain ⟨a, ha⟩ := key [0] (by simp) (by simp)
  obtain ⟨b, hb⟩ := key [3] (by simp) (by simp)
  obtain ⟨c, hc⟩ := key [0,3] (by simp) (by simp)
  refine ⟨g, a, b, c, _, ha, hb, hc, hrel, ?_, ⟨rfl, by decide, ?_, by decide, by decide⟩⟩
  · intro i hi
    refine ⟨?_, rfl⟩
    have e : ¬ ((1:ℝ) < eps) := by unfold XR.eps; norm_num
    rcases h4 i hi with rfl | rfl | rfl | rfl <;> exact decide_eq_false e
  · intro k l hk hl e
    have hk : k < 2 := hk
    have hl : l < 2 := hl
    omega
end FMV
