import Verif.Props.Image
import Verif.Props.HeapF64
/-!
# C84: from a picture to arrival times, in 64-bit arithmetic
-/
set_option linter.unusedSectionVars false
set_option linter.unusedVariables false
namespace FMV
open Spec Shape XR FMM IO
variable {R : Rounding}

namespace Spec

/-- The problem described by a picture of `w` x `h` pixels: cell `i` of the grid belongs to the pixel in column `i mod w` of row `i / w`, counted from the bottom row; black pixels (0) are
obstacles, the speed is `speed`, cells have size 1; the wave starts in the cells `starts`. -/
def pictureProblem (w h : Nat) (px : Nat → Nat → ℝ) (speed : ℝ → ℝ) (starts : List Nat) : Problem :=
  { dims := [w, h], h := 1, v := fun i => speed (px (i % w) (h - 1 - i / w)), obstacle := fun i => px (i % w) (h - 1 - i / w) = 0, source := fun i => i ∈ starts }

end Spec

theorem loaded_fresh {F : Type} [Arith F] (img : Img F) (g0 : Grid F) : Fresh (loadMapFromImg img g0) ∧ (loadMapFromImg img g0).leaf = g0.leaf := by
  have key : ∀ (ps : List (Nat × Nat)) (g : Grid F) (obs : List Nat), Fresh g → Fresh (imgCells img ps g obs).1 ∧ (imgCells img ps g obs).1.leaf = g.leaf := by
    intro ps
    induction ps with
    | nil => intro g obs h; exact ⟨h, rfl⟩
    | cons p ps ih =>
      intro g obs h
      unfold imgCells
      dsimp only
      have h' : Fresh (g.setVelocity (pixelCell img.w img.h p.1 p.2) (Arith.div (img.px p.1 p.2) (Arith.ofNat 255))) := by
        refine ⟨fun i => ?_, fun i => ?_, fun i => ?_⟩
        · have := h.value i; unfold Grid.value Grid.setVelocity Grid.modify at *; dsimp only; split <;> simpa using this
        · have := h.state i; unfold Grid.state Grid.setVelocity Grid.modify at *; dsimp only; split <;> simpa using this
        · have := h.hValue i; unfold Grid.setVelocity Grid.modify at *; dsimp only; split <;> simpa using this
      have := ih _ (if (g.setVelocity (pixelCell img.w img.h p.1 p.2) (Arith.div (img.px p.1 p.2) (Arith.ofNat 255))).occ (pixelCell img.w img.h p.1 p.2)
        then obs ++ [pixelCell img.w img.h p.1 p.2] else obs) h'
      exact ⟨this.1, this.2⟩
  have := key (forXY img.w img.h) (g0.resize [img.w, img.h]) [] ⟨fun _ => rfl, fun _ => rfl, fun _ => rfl⟩
  exact ⟨⟨this.1.value, this.1.state, this.1.hValue⟩, this.2⟩

theorem cell_of_pixel {w h : Nat} (hlt : w * h < 2^32) {i : Nat} (hi : i < w * h) : i % w < w ∧ h - 1 - i / w < h ∧ pixelCell w h (i % w) (h - 1 - i / w) = i := by
  have hp : 0 < w := Nat.pos_of_ne_zero (by rintro rfl; simp at hi)
  have hq : i / w < h := by rw [Nat.div_lt_iff_lt_mul hp]; rwa [Nat.mul_comm] at hi
  have hm : i % w < w := Nat.mod_lt _ hp
  have hdm := Nat.div_add_mod i w
  generalize i / w = q at hq hdm
  generalize i % w = r at hm hdm
  refine ⟨hm, by omega, ?_⟩
  rw [pixelCell_eq hm (by omega) hlt, show h - (h - 1 - q) - 1 = q by omega]
  exact hdm

/-- the speed stored for a pixel of brightness `a` between 0 and 255: `a/255`, rounded -/
theorem stored_speed (R : Rounding) (x : F64 R) (a : ℝ) (hx : x.1 = .fin a) (h : a = 0 ∨ (1 ≤ a ∧ a ≤ 255)) :
    ∃ s : ℝ, (Arith.div x (Arith.ofNat 255) : F64 R).1 = .fin s ∧ |s - a / 255| ≤ 1 / 2^52 ∧ (a = 0 → s = 0) ∧ (a = 255 → s = 1) ∧ (a ≠ 0 → 1/256 ≤ s ∧ s ≤ 1) := by
  have e255 : (Arith.ofNat 255 : F64 R).1 = .fin 255 := by
    show R.rd _ = _
    have : (((255:Nat) : Int) : ℝ) / ((1:Nat):ℝ) = ((255:Nat):ℝ) := by norm_num
    rw [this, R.exact _ (isDouble_nat (by norm_num))]
    norm_num
  have ed : (Arith.div x (Arith.ofNat 255) : F64 R).1 = R.rd (a / 255) := by
    show (F64.rnd R (XR.div x.1 (Arith.ofNat 255 : F64 R).1)).1 = _
    rw [hx, e255]
    have : XR.div (.fin a) (.fin 255) = .fin (a / 255) := by unfold XR.div; norm_num
    rw [this]; rfl
  have hbd : |a / 255| < 2^53 * (2:ℝ)^(-52:ℤ) := by
    have h2 : (2:ℝ)^53 * (2:ℝ)^(-52:ℤ) = 2 := by rw [zpow_neg]; norm_num
    rw [h2, abs_lt]
    rcases h with h | ⟨h1, h2⟩
    · rw [h]; norm_num
    · constructor <;> linarith
  obtain ⟨s, hs, herr⟩ := rd_between R (by norm_num) (by norm_num) hbd
  have hz : (2:ℝ)^(-52:ℤ) = 1/2^52 := by rw [zpow_neg]; norm_num
  rw [hz] at herr
  refine ⟨s, by rw [ed, hs], herr, ?_, ?_, ?_⟩
  · rintro rfl
    have := R.exact 0 IsDouble.zero
    rw [zero_div, this] at hs
    injection hs with hs; exact hs.symm
  · rintro rfl
    have := R.exact 1 IsDouble.one
    rw [show (255:ℝ)/255 = 1 by norm_num, this] at hs
    injection hs with hs; exact hs.symm
  · intro hne
    rcases h with h | ⟨h1, h2⟩
    · exact absurd h hne
    have d : IsDouble (1/256 : ℝ) := ⟨1, -8, by norm_num, by norm_num, by norm_num, by rw [zpow_neg]; norm_num⟩
    have l1 := R.mono (1/256) (a/255) (by linarith)
    have l2 := R.mono (a/255) 1 (by linarith)
    rw [R.exact _ d, hs] at l1
    rw [R.exact _ IsDouble.one, hs] at l2
    simp only [XR.le, decide_eq_true_eq] at l1 l2
    exact ⟨l1, l2⟩

/-- a loaded picture is an input of the accuracy theorems in doubles -/
theorem picture_input (img : Img (F64 R)) (g0 : Grid (F64 R)) (hleaf : g0.leaf = Arith.one) (hw : 2 ≤ img.w) (hh : 2 ≤ img.h) (hlt : img.w * img.h ≤ 2^31)
    (a : Nat → Nat → ℝ) (hpx : ∀ x y, x < img.w → y < img.h → (img.px x y).1 = .fin (a x y) ∧ (a x y = 0 ∨ (1 ≤ a x y ∧ a x y ≤ 255)))
    (speed : ℝ → ℝ) (hsp : ∀ x y, x < img.w → y < img.h → a x y ≠ 0 → (Arith.div (img.px x y) (Arith.ofNat 255) : F64 R).1 = .fin (speed (a x y)))
    (cM : ℝ) (hcM1 : 1 ≤ cM) (hcM2 : cM ≤ 256) (hsl : ∀ x y, x < img.w → y < img.h → a x y ≠ 0 → 1 / cM ≤ speed (a x y))
    (starts : List Nat) (hst : ∀ s ∈ starts, s < img.w * img.h) (K : Nat) (hK : cM * (K + 1) ≤ 200000) :
    ∃ I : DInput [img.w, img.h] (loadMapFromImg img g0) 1 (fun i => speed (a (i % img.w) (img.h - 1 - i / img.w))) starts 1 cM (2 * cM * (K + 1)),
      I.X.problem.IsSolution = (pictureProblem img.w img.h a speed starts).IsSolution := by
  have hlt' : img.w * img.h < 2^32 := by omega
  have hwlt : img.w < 2^32 := by
    have : img.w * 1 ≤ img.w * img.h := Nat.mul_le_mul_left _ (by omega)
    omega
  obtain ⟨l1, l2, l3, l4, l5, _⟩ := C37_load img g0 hwlt hlt'
  have hprod : ([img.w, img.h] : List Nat).prod = img.w * img.h := by simp
  have hvel : ∀ i, i < img.w * img.h → ((loadMapFromImg img g0).vel i) = Arith.div (img.px (i % img.w) (img.h - 1 - i / img.w)) (Arith.ofNat 255) := by
    intro i hi
    obtain ⟨c1, c2, c3⟩ := cell_of_pixel hlt' hi
    have := l3 _ _ c1 c2
    rw [c3] at this; exact this
  have hocc : ∀ i, i < img.w * img.h → ((loadMapFromImg img g0).occ i = true ↔ a (i % img.w) (img.h - 1 - i / img.w) = 0) := by
    intro i hi
    obtain ⟨c1, c2, c3⟩ := cell_of_pixel hlt' hi
    obtain ⟨p1, p2⟩ := hpx _ _ c1 c2
    obtain ⟨s, s1, _, s2, _, s3⟩ := stored_speed R _ _ p1 p2
    have e : (loadMapFromImg img g0).occ i = XR.lt ((loadMapFromImg img g0).vel i).1 (.fin XR.eps) := rfl
    rw [e, hvel i hi, s1]
    simp only [XR.lt, decide_eq_true_eq]
    constructor
    · intro hlt
      by_contra hne
      have := (s3 hne).1
      have : XR.eps < 1/256 := by unfold XR.eps; norm_num
      linarith
    · intro h0
      rw [s2 h0]; exact eps_pos
  have hnocc : ∀ i, i < img.w * img.h → (loadMapFromImg img g0).occ i = false → a (i % img.w) (img.h - 1 - i / img.w) ≠ 0 := by
    intro i hi ho hc
    rw [(hocc i hi).2 hc] at ho; cases ho
  have hspd : ∀ i, i < img.w * img.h → (loadMapFromImg img g0).occ i = false →
      1 / cM ≤ speed (a (i % img.w) (img.h - 1 - i / img.w)) ∧ speed (a (i % img.w) (img.h - 1 - i / img.w)) ≤ 1 := by
    intro i hi ho
    obtain ⟨c1, c2, c3⟩ := cell_of_pixel hlt' hi
    obtain ⟨p1, p2⟩ := hpx _ _ c1 c2
    have hne := hnocc i hi ho
    refine ⟨hsl _ _ c1 c2 hne, ?_⟩
    obtain ⟨s, s1, _, _, _, s3⟩ := stored_speed R _ _ p1 p2
    have := hsp _ _ c1 c2 hne
    rw [s1] at this
    injection this with this
    rw [← this]; exact (s3 hne).2
  have X : XInput [img.w, img.h] (gridX (loadMapFromImg img g0)) 1 (fun i => speed (a (i % img.w) (img.h - 1 - i / img.w))) starts := by
    refine ⟨⟨by simp, ?_, ?_⟩, ?_, l1, ?_, one_pos, ?_, ?_⟩
    · intro x hx
      simp only [List.mem_cons, List.not_mem_nil, or_false] at hx
      rcases hx with rfl | rfl <;> omega
    · rw [hprod]; omega
    · intro x hx
      simp only [List.mem_cons, List.not_mem_nil, or_false] at hx
      rcases hx with rfl | rfl <;> assumption
    · intro s hs; rw [hprod]; exact hst s hs
    · show (loadMapFromImg img g0).leaf.1 = _
      rw [(loaded_fresh img g0).2, hleaf]; rfl
    · intro i hi ho
      rw [hprod] at hi
      obtain ⟨c1, c2, c3⟩ := cell_of_pixel hlt' hi
      show ((loadMapFromImg img g0).vel i).1 = _
      rw [hvel i hi]
      exact hsp _ _ c1 c2 (hnocc i hi ho)
  have hcM0 : 0 < cM := by linarith
  have hb : (2:ℝ)^(200:ℤ) ≥ 1 := by
    have : (2:ℝ)^(0:ℤ) ≤ (2:ℝ)^(200:ℤ) := zpow_le_zpow_right₀ (by norm_num) (by norm_num)
    simpa using this
  have hA : 2 * cM * ((K:ℝ) + 1) ≤ 400000 := by linarith
  have hA0 : 0 ≤ 2 * cM * ((K:ℝ) + 1) := by positivity
  have hA1 : cM ≤ 2 * cM * ((K:ℝ) + 1) := by
    have : (0:ℝ) ≤ K := by positivity
    nlinarith
  have I : DInput [img.w, img.h] (loadMapFromImg img g0) 1 (fun i => speed (a (i % img.w) (img.h - 1 - i / img.w))) starts 1 cM (2 * cM * (K + 1)) := by
    refine ⟨X, ?_, hb, ?_, one_pos, ?_, ?_, hA1, by linarith, ?_, ?_, ?_⟩
    · have : (2:ℝ)^(-200:ℤ) ≤ (2:ℝ)^(0:ℤ) := zpow_le_zpow_right₀ (by norm_num) (by norm_num)
      simpa using this
    · intro i hi ho
      rw [hprod] at hi
      exact le_trans (hspd i hi ho).2 hb
    · intro i hi ho
      rw [hprod] at hi
      obtain ⟨q1, q2⟩ := hspd i hi ho
      have : 0 < 1 / cM := by positivity
      rw [le_div_iff₀ (by linarith)]; linarith
    · intro i hi ho
      rw [hprod] at hi
      obtain ⟨q1, q2⟩ := hspd i hi ho
      have : 0 < 1 / cM := by positivity
      rw [div_le_iff₀ (by linarith)]
      have := mul_le_mul_of_nonneg_left q1 hcM0.le
      rw [mul_one_div_cancel hcM0.ne'] at this
      exact this
    · have : (2:ℝ)^(20:ℤ) ≤ (2:ℝ)^(300:ℤ) := zpow_le_zpow_right₀ (by norm_num) (by norm_num)
      refine le_trans hA (le_trans ?_ this)
      norm_num
    · have h2 : (2 * cM * ((K:ℝ) + 1))^2 ≤ 400000^2 := pow_le_pow_left₀ hA0 hA 2
      have e : (([img.w, img.h] : List Nat).length : ℝ) = 2 := by norm_num
      rw [e]
      unfold uu
      nlinarith
    · unfold XR.eps; norm_num
  refine ⟨I, ?_⟩
  funext U
  apply propext
  rw [isSolution_iff X.wellPosed]
  have hobs : ∀ i, i < ([img.w, img.h] : List Nat).prod → ((gridX (loadMapFromImg img g0)).occ i = true ↔ a (i % img.w) (img.h - 1 - i / img.w) = 0) := by
    intro i hi; rw [hprod] at hi; exact hocc i hi
  have hP : (pictureProblem img.w img.h a speed starts).WellPosed := by
    refine ⟨by show 2 ≤ ([img.w, img.h] : List Nat).length; simp, X.fits.pos, by show ([img.w, img.h] : List Nat).prod ≤ _; rw [hprod]; exact hlt, one_pos, ?_⟩
    intro i hi ho
    have hi' : i < img.w * img.h := by rw [← hprod]; exact hi
    have : (loadMapFromImg img g0).occ i = false := by
      cases hc : (loadMapFromImg img g0).occ i with
      | false => rfl
      | true => exact absurd ((hocc i hi').1 hc) ho
    have h1 := (hspd i hi' this).1
    have : 0 < 1 / cM := by positivity
    show 0 < speed _
    linarith
  rw [isSolution_iff hP]
  unfold ExSol
  apply forall_congr'
  intro i
  apply forall_congr'
  intro hi
  have e := hobs i hi
  show ((i ∈ starts → _) ∧ (i ∉ starts → (gridX (loadMapFromImg img g0)).occ i = true → _) ∧ (i ∉ starts → ¬ (gridX (loadMapFromImg img g0)).occ i = true → _)) ↔ _
  rw [e]
  exact Iff.rfl

/-- **C84**, black and white pictures: for every picture of black (0) and white (255) pixels of at least 2 x 2 and at most 2^31 pixels, loaded with `loadMapFromImg` into a grid with cells of
size 1, every list of starting cells no two of which are neighbours, and every `K` up to 199999 such that all cells that can be reached can be reached in `K` steps: FMM with either of its
heaps, without goal, in 64-bit arithmetic with any rounding, has ended after at most as many iterations as there are pixels and starts, and the time of every cell has relative error at
most `relErr` with respect to the solution of the discretised Eikonal equation with speed 1 on the white pixels; it is infinite exactly in the cells where that is. -/
theorem C84_black_white (img : Img (F64 R)) (g0 : Grid (F64 R)) (hleaf : g0.leaf = Arith.one) (hw : 2 ≤ img.w) (hh : 2 ≤ img.h) (hlt : img.w * img.h ≤ 2^31)
    (a : Nat → Nat → ℝ) (hpx : ∀ x y, x < img.w → y < img.h → (img.px x y).1 = .fin (a x y) ∧ (a x y = 0 ∨ a x y = 255))
    (starts : List Nat) (hst : ∀ s ∈ starts, s < img.w * img.h) (hnd : starts.Nodup) (hap : StartsApart [img.w, img.h] (loadMapFromImg img g0) starts)
    (K : Nat) (hK : K < 200000) (hwi : Within [img.w, img.h] (loadMapFromImg img g0) starts K)
    (U : Nat → WithTop ℝ) (hU : (pictureProblem img.w img.h a (fun _ => 1) starts).IsSolution U)
    (cfg : Cfg (F64 R)) (hd : cfg.dup = false) (hcfg : cfg.heur = .none) (hgoal : img.w * img.h ≤ cfg.goal)
    {b0 : DHeap} (E : DHeap.Emptied (img.w * img.h) b0) {f0 : FHeap} (E' : FHeap.Emptied (img.w * img.h) f0) (k : Nat) (hk : img.w * img.h + starts.length ≤ k) :
    let rD := bRun DHeap.band cfg eikS k (bInit DHeap.band cfg (loadMapFromImg img g0) b0 starts)
    let rF := bRun FHeap.band cfg eikS k (bInit FHeap.band cfg (loadMapFromImg img g0) f0 starts)
    BDone DHeap.band rD ∧ BDone FHeap.band rF ∧ ∀ i, i < img.w * img.h →
      RelClose (2 / 10^10 + 12 / 10^12 * (K + 1)^2) (U i) (rD.g.value i).1 ∧ RelClose (2 / 10^10 + 12 / 10^12 * (K + 1)^2) (U i) (rF.g.value i).1 := by
  have hprod : ([img.w, img.h] : List Nat).prod = img.w * img.h := by simp
  have hpx' : ∀ x y, x < img.w → y < img.h → (img.px x y).1 = .fin (a x y) ∧ (a x y = 0 ∨ (1 ≤ a x y ∧ a x y ≤ 255)) := by
    intro x y hx hy
    obtain ⟨h1, h2⟩ := hpx x y hx hy
    refine ⟨h1, h2.imp id (fun h => ?_)⟩
    rw [h]; norm_num
  have hsp : ∀ x y, x < img.w → y < img.h → a x y ≠ 0 → (Arith.div (img.px x y) (Arith.ofNat 255) : F64 R).1 = .fin ((fun _ => (1:ℝ)) (a x y)) := by
    intro x y hx hy hne
    obtain ⟨h1, h2⟩ := hpx' x y hx hy
    obtain ⟨s, s1, _, _, s3, _⟩ := stored_speed R _ _ h1 h2
    rw [s1, s3 (((hpx x y hx hy).2).resolve_left hne)]
  have hK' : (1:ℝ) * ((K:ℝ) + 1) ≤ 200000 := by
    have : (K:ℝ) + 1 ≤ 200000 := by exact_mod_cast hK
    linarith
  obtain ⟨I, hI⟩ := picture_input img g0 hleaf hw hh hlt a hpx' (fun _ => 1) hsp 1 (le_refl _) (by norm_num) (fun _ _ _ _ _ => by norm_num) starts hst K hK'
  obtain ⟨⟨d1, d2⟩, f1, f2⟩ := C57_FMM_heaps_accurate_doubles K I (le_refl _) hwi (loaded_fresh img g0).1 hap hnd U (by rw [hI]; exact hU) cfg hd hcfg
    (by rw [hprod]; exact hgoal) (by rw [hprod]; exact E) (by rw [hprod]; exact E') k (by rw [hprod]; exact hk)
  have herr : relErr ([img.w, img.h] : List Nat).length 1 (2 * 1 * ((K:ℝ) + 1)) ≤ 2 / 10^10 + 12 / 10^12 * ((K:ℝ) + 1)^2 := by
    unfold relErr
    have e : (([img.w, img.h] : List Nat).length : ℝ) = 2 := by norm_num
    rw [e]
    have : (0:ℝ) ≤ ((K:ℝ) + 1)^2 := by positivity
    have e2 : (2 * 1 * ((K:ℝ) + 1) / 1)^2 = 4 * ((K:ℝ) + 1)^2 := by ring
    rw [e2]
    nlinarith
  have hU0 : ∀ i, i < img.w * img.h → 0 ≤ U i := by
    intro i hi
    have hX : I.X.problem.IsSolution U := by rw [hI]; exact hU
    exact (I.X.exSol hX).nonneg I.X.fits (fun j hj _ ho => I.X.cpos hj (by simpa using ho)) i (by rw [hprod]; exact hi)
  have weak : ∀ i, i < img.w * img.h → ∀ t, RelClose (relErr ([img.w, img.h] : List Nat).length 1 (2 * 1 * ((K:ℝ) + 1))) (U i) t →
      RelClose (2 / 10^10 + 12 / 10^12 * (K + 1)^2) (U i) t := by
    intro i hi t ht
    rcases ht with h | ⟨e, r, e1, e2, e3, e4⟩
    · exact Or.inl h
    · have := hU0 i hi
      rw [e1] at this
      have he : 0 ≤ e := by exact_mod_cast this
      have hm := mul_le_mul_of_nonneg_right herr he
      refine Or.inr ⟨e, r, e1, e2, le_trans ?_ e3, le_trans e4 ?_⟩
      · rw [sub_mul, sub_mul]; linarith
      · rw [add_mul, add_mul]; linarith
  exact ⟨d1, f1, fun i hi => ⟨weak i hi _ (d2 i (by rw [hprod]; exact hi)), weak i hi _ (f2 i (by rw [hprod]; exact hi))⟩⟩

/-- **C84**, grey pictures: the same for pictures with pixels of any brightness between 0 and 255 (not strictly between 0 and 1) and `K` up to 780. The speed in the discretised
equation is the double stored in the cell, which differs from brightness/255 by at most `2^-52` (first claim). -/
theorem C84_grey (img : Img (F64 R)) (g0 : Grid (F64 R)) (hleaf : g0.leaf = Arith.one) (hw : 2 ≤ img.w) (hh : 2 ≤ img.h) (hlt : img.w * img.h ≤ 2^31)
    (a : Nat → Nat → ℝ) (hpx : ∀ x y, x < img.w → y < img.h → (img.px x y).1 = .fin (a x y) ∧ (a x y = 0 ∨ (1 ≤ a x y ∧ a x y ≤ 255)))
    (starts : List Nat) (hst : ∀ s ∈ starts, s < img.w * img.h) (hnd : starts.Nodup) (hap : StartsApart [img.w, img.h] (loadMapFromImg img g0) starts)
    (K : Nat) (hK : K ≤ 780) (hwi : Within [img.w, img.h] (loadMapFromImg img g0) starts K)
    (cfg : Cfg (F64 R)) (hd : cfg.dup = false) (hcfg : cfg.heur = .none) (hgoal : img.w * img.h ≤ cfg.goal)
    {b0 : DHeap} (E : DHeap.Emptied (img.w * img.h) b0) {f0 : FHeap} (E' : FHeap.Emptied (img.w * img.h) f0) (k : Nat) (hk : img.w * img.h + starts.length ≤ k) :
    let rD := bRun DHeap.band cfg eikS k (bInit DHeap.band cfg (loadMapFromImg img g0) b0 starts)
    let rF := bRun FHeap.band cfg eikS k (bInit FHeap.band cfg (loadMapFromImg img g0) f0 starts)
    ∃ speed : ℝ → ℝ, (∀ x y, x < img.w → y < img.h → |speed (a x y) - a x y / 255| ≤ 1 / 2^52) ∧
    ∀ U, (pictureProblem img.w img.h a speed starts).IsSolution U →
    BDone DHeap.band rD ∧ BDone FHeap.band rF ∧ ∀ i, i < img.w * img.h →
      RelClose (2 / 10^10 + 8 / 10^7 * (K + 1)^2) (U i) (rD.g.value i).1 ∧ RelClose (2 / 10^10 + 8 / 10^7 * (K + 1)^2) (U i) (rF.g.value i).1 := by
  intro rD rF
  have hprod : ([img.w, img.h] : List Nat).prod = img.w * img.h := by simp
  -- the stored speed as a function of the brightness
  have hex : ∀ b : ℝ, ∃ s : ℝ, R.rd (b / 255) = .fin s ∨ ¬ ∃ s, R.rd (b / 255) = .fin s := by
    intro b
    by_cases h : ∃ s, R.rd (b / 255) = .fin s
    · obtain ⟨s, hs⟩ := h; exact ⟨s, Or.inl hs⟩
    · exact ⟨0, Or.inr h⟩
  choose speed hspeed using hex
  have e255 : (Arith.ofNat 255 : F64 R).1 = .fin 255 := by
    show R.rd _ = _
    have : (((255:Nat) : Int) : ℝ) / ((1:Nat):ℝ) = ((255:Nat):ℝ) := by norm_num
    rw [this, R.exact _ (isDouble_nat (by norm_num))]
    norm_num
  have hsp' : ∀ x y, x < img.w → y < img.h → (Arith.div (img.px x y) (Arith.ofNat 255) : F64 R).1 = .fin (speed (a x y)) := by
    intro x y hx hy
    obtain ⟨h1, h2⟩ := hpx x y hx hy
    obtain ⟨s, s1, _⟩ := stored_speed R _ _ h1 h2
    have ed : (Arith.div (img.px x y) (Arith.ofNat 255) : F64 R).1 = R.rd (a x y / 255) := by
      show (F64.rnd R (XR.div (img.px x y).1 (Arith.ofNat 255 : F64 R).1)).1 = _
      rw [h1, e255]
      have : XR.div (.fin (a x y)) (.fin 255) = .fin (a x y / 255) := by unfold XR.div; norm_num
      rw [this]; rfl
    rcases hspeed (a x y) with h | h
    · rw [ed, h]
    · exact absurd ⟨s, by rw [← ed, s1]⟩ h
  have hst' : ∀ x y, x < img.w → y < img.h → |speed (a x y) - a x y / 255| ≤ 1 / 2^52 ∧ (a x y ≠ 0 → 1/256 ≤ speed (a x y)) := by
    intro x y hx hy
    obtain ⟨h1, h2⟩ := hpx x y hx hy
    obtain ⟨s, s1, s2, _, _, s3⟩ := stored_speed R _ _ h1 h2
    have := hsp' x y hx hy
    rw [s1] at this
    injection this with this
    rw [← this]
    exact ⟨s2, fun hne => (s3 hne).1⟩
  refine ⟨speed, fun x y hx hy => (hst' x y hx hy).1, ?_⟩
  intro U hU
  have hK' : (256:ℝ) * ((K:ℝ) + 1) ≤ 200000 := by
    have : (K:ℝ) ≤ 780 := by exact_mod_cast hK
    linarith
  obtain ⟨I, hI⟩ := picture_input img g0 hleaf hw hh hlt a hpx speed (fun x y hx hy _ => hsp' x y hx hy) 256 (by norm_num) (le_refl _)
    (fun x y hx hy hne => (hst' x y hx hy).2 hne) starts hst K hK'
  obtain ⟨⟨d1, d2⟩, f1, f2⟩ := C57_FMM_heaps_accurate_doubles K I (by norm_num) hwi (loaded_fresh img g0).1 hap hnd U (by rw [hI]; exact hU) cfg hd hcfg
    (by rw [hprod]; exact hgoal) (by rw [hprod]; exact E) (by rw [hprod]; exact E') k (by rw [hprod]; exact hk)
  have herr : relErr ([img.w, img.h] : List Nat).length 1 (2 * 256 * ((K:ℝ) + 1)) ≤ 2 / 10^10 + 8 / 10^7 * ((K:ℝ) + 1)^2 := by
    unfold relErr
    have e : (([img.w, img.h] : List Nat).length : ℝ) = 2 := by norm_num
    rw [e]
    have : (0:ℝ) ≤ ((K:ℝ) + 1)^2 := by positivity
    have e2 : (2 * 256 * ((K:ℝ) + 1) / 1)^2 = 262144 * ((K:ℝ) + 1)^2 := by ring
    rw [e2]
    nlinarith
  have hU0 : ∀ i, i < img.w * img.h → 0 ≤ U i := by
    intro i hi
    have hX : I.X.problem.IsSolution U := by rw [hI]; exact hU
    exact (I.X.exSol hX).nonneg I.X.fits (fun j hj _ ho => I.X.cpos hj (by simpa using ho)) i (by rw [hprod]; exact hi)
  have weak : ∀ i, i < img.w * img.h → ∀ t, RelClose (relErr ([img.w, img.h] : List Nat).length 1 (2 * 256 * ((K:ℝ) + 1))) (U i) t →
      RelClose (2 / 10^10 + 8 / 10^7 * (K + 1)^2) (U i) t := by
    intro i hi t ht
    rcases ht with h | ⟨e, r, e1, e2, e3, e4⟩
    · exact Or.inl h
    · have := hU0 i hi
      rw [e1] at this
      have he : 0 ≤ e := by exact_mod_cast this
      have hm := mul_le_mul_of_nonneg_right herr he
      refine Or.inr ⟨e, r, e1, e2, le_trans ?_ e3, le_trans e4 ?_⟩
      · rw [sub_mul, sub_mul]; linarith
      · rw [add_mul, add_mul]; linarith
  exact ⟨d1, f1, fun i hi => ⟨weak i hi _ (d2 i (by rw [hprod]; exact hi)), weak i hi _ (f2 i (by rw [hprod]; exact hi))⟩⟩

/-- non-vacuity: a 3 x 3 picture with a black pixel in the middle and rounding to nearest; the discretised equation has a solution, and the runs exist -/
example : ∃ (img : Img (F64 Rounding.nearest)) (g0 : Grid (F64 Rounding.nearest)) (a : Nat → Nat → ℝ), img.w = 3 ∧ img.h = 3 ∧ g0.leaf = Arith.one ∧
    (∀ x y, x < img.w → y < img.h → (img.px x y).1 = .fin (a x y) ∧ (a x y = 0 ∨ a x y = 255)) ∧ a 1 1 = 0 ∧ a 0 0 = 255 ∧
    StartsApart [img.w, img.h] (loadMapFromImg img g0) [0] ∧ Within [img.w, img.h] (loadMapFromImg img g0) [0] 8 ∧
    (∃ U, (pictureProblem img.w img.h a (fun _ => 1) [0]).IsSolution U) ∧ DHeap.Emptied (img.w * img.h) (DHeap.new 9) ∧ FHeap.Emptied (img.w * img.h) (FHeap.new 9) := by
  set R := Rounding.nearest
  let img : Img (F64 R) := ⟨3, 3, fun x y => if x = 1 ∧ y = 1 then Arith.zero else Arith.ofNat 255⟩
  let g0 : Grid (F64 R) := Grid.create [] Arith.one (0,0)
  let a : Nat → Nat → ℝ := fun x y => if x = 1 ∧ y = 1 then 0 else 255
  have e255 : (Arith.ofNat 255 : F64 R).1 = .fin 255 := by
    show R.rd _ = _
    have : (((255:Nat) : Int) : ℝ) / ((1:Nat):ℝ) = ((255:Nat):ℝ) := by norm_num
    rw [this, R.exact _ (isDouble_nat (by norm_num))]
    norm_num
  have hpx : ∀ x y, x < img.w → y < img.h → (img.px x y).1 = .fin (a x y) ∧ (a x y = 0 ∨ a x y = 255) := by
    intro x y _ _
    show (if x = 1 ∧ y = 1 then (Arith.zero : F64 R) else Arith.ofNat 255).1 = .fin (if x = 1 ∧ y = 1 then 0 else 255) ∧ ((if x = 1 ∧ y = 1 then (0:ℝ) else 255) = 0 ∨ (if x = 1 ∧ y = 1 then (0:ℝ) else 255) = 255)
    split
    · exact ⟨rfl, Or.inl rfl⟩
    · exact ⟨e255, Or.inr rfl⟩
  have hpx' : ∀ x y, x < img.w → y < img.h → (img.px x y).1 = .fin (a x y) ∧ (a x y = 0 ∨ (1 ≤ a x y ∧ a x y ≤ 255)) := by
    intro x y hx hy
    obtain ⟨h1, h2⟩ := hpx x y hx hy
    refine ⟨h1, h2.imp id (fun h => ?_)⟩
    rw [h]; norm_num
  obtain ⟨I, hI⟩ := picture_input img g0 rfl (by decide) (by decide) (by decide) a hpx' (fun _ => 1)
    (fun x y hx hy hne => by
      obtain ⟨h1, h2⟩ := hpx' x y hx hy
      obtain ⟨s, s1, _, _, s3, _⟩ := stored_speed R _ _ h1 h2
      rw [s1, s3 (((hpx x y hx hy).2).resolve_left hne)]) 1 (le_refl _) (by norm_num) (fun _ _ _ _ _ => by norm_num) [0] (by decide) 8 (by norm_num)
  obtain ⟨U, hU, _⟩ := C17_unique_solution I.X.problem I.X.wellPosed
  refine ⟨img, g0, a, rfl, rfl, rfl, hpx, by simp [a], by simp [a], ?_, DInput.within_cells I.X, ⟨U, by rw [← hI]; exact hU⟩, DHeap.emptied_new 9, FHeap.emptied_new 9⟩
  intro i hi j hj _ hadj
  obtain ⟨k, h0, h1, h2, h3⟩ := hadj
  rw [List.mem_singleton] at hi hj
  subst hi; subst hj
  omega

end FMV
