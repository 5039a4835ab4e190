import Verif.Lemmas.IO
import Verif.Model.XR
/-
C37: loading an image and plotting a grid.
-/
namespace FMV
open Arith IO
variable {F : Type} [Arith F]

namespace IO

theorem mk2_d {w h : Nat} (hw : w < 2^32) (hlt : w * h < 2^32) : (Shape.mk' [w,h]).d = [w, w*h] ∧ (Shape.mk' [w,h]).ncells = w * h := by
  have h1 : u32 (1 * w) = w := by unfold u32; rw [one_mul]; exact Nat.mod_eq_of_lt (by simpa using hw)
  have h2 : u32 (w * h) = w * h := by unfold u32; exact Nat.mod_eq_of_lt (by simpa using hlt)
  have hp : partials 1 [w,h] = [w, w*h] := by unfold partials partials partials; rw [h1, h2]
  exact ⟨hp, by show (partials 1 [w,h]).getLastD 1 = _; rw [hp]; rfl⟩

theorem cell_lt {w h x y : Nat} (hx : x < w) (hy : y < h) : w * (h - y - 1) + x < w * h := by
  have : w * (h - y - 1) + w ≤ w * h := by
    rw [← Nat.mul_succ]; exact Nat.mul_le_mul_left _ (by omega)
  omega

theorem pixelCell_eq {w h x y : Nat} (hx : x < w) (hy : y < h) (hlt : w * h < 2^32) : pixelCell w h x y = w * (h - y - 1) + x := by
  unfold pixelCell u32
  have := cell_lt hx hy
  exact Nat.mod_eq_of_lt (by omega)

theorem mem_forXY {w h : Nat} {p : Nat × Nat} : p ∈ forXY w h ↔ p.1 < w ∧ p.2 < h := by
  unfold forXY
  simp only [List.mem_flatMap, List.mem_range, List.mem_map]
  constructor
  · rintro ⟨y, hy, x, hx, rfl⟩; exact ⟨hx, hy⟩
  · rintro ⟨h1, h2⟩; exact ⟨p.2, h2, p.1, h1, rfl⟩

theorem imgCells_eq (img : Img F) (v : Nat → F) (ps : List (Nat × Nat)) (hv : ∀ p ∈ ps, v (pixelCell img.w img.h p.1 p.2) = div (img.px p.1 p.2) (ofNat 255))
    (g : Grid F) (obs : List Nat) :
    imgCells img ps g obs = (withVel g (ps.map (fun p => pixelCell img.w img.h p.1 p.2)) v,
      obs ++ (ps.map (fun p => pixelCell img.w img.h p.1 p.2)).filter (fun i => lt (v i) (margin : F))) := by
  induction ps generalizing g obs with
  | nil => simp [imgCells, withVel_nil]
  | cons p ps ih =>
    unfold imgCells
    have h0 := hv p (by simp)
    simp only [occ_setVelocity]
    rw [ih (fun q hq => hv q (by simp [hq])), List.map_cons, withVel_cons _ _ _ _ _ h0.symm, List.filter_cons, h0]
    cases h : lt (div (img.px p.1 p.2) (ofNat 255)) (margin : F) <;> simp

theorem cell_inj {w : Nat} {x1 x2 a b : Nat} (h1 : x1 < w) (h2 : x2 < w) (h : w * a + x1 = w * b + x2) : x1 = x2 ∧ a = b := by
  have hp : 0 < w := by omega
  have e1 : (w * a + x1) / w = a := by rw [Nat.mul_add_div hp, Nat.div_eq_of_lt h1, Nat.add_zero]
  have e2 : (w * b + x2) / w = b := by rw [Nat.mul_add_div hp, Nat.div_eq_of_lt h2, Nat.add_zero]
  have : a = b := by rw [← e1, ← e2, h]
  subst this
  exact ⟨by omega, rfl⟩

theorem nodup_forXY (w h : Nat) : (forXY w h).Nodup := by
  unfold forXY
  rw [List.nodup_flatMap]
  refine ⟨fun y _ => ?_, ?_⟩
  · exact List.Nodup.map (fun a b e => (Prod.mk.inj e).1) List.nodup_range
  · refine List.Pairwise.imp_of_mem ?_ (List.nodup_iff_pairwise_ne.1 (List.nodup_range (n := h)))
    intro a b _ _ hab
    intro p hp hq
    simp only [List.mem_map] at hp hq
    obtain ⟨_, _, rfl⟩ := hp
    obtain ⟨_, _, h⟩ := hq
    exact hab (Prod.mk.inj h).2.symm

end IO

/-- **C37**: pixel `(x, y)` of an image belongs to the cell with coordinates `(x, height - 1 - y)`: the bottom row comes first. -/
theorem C37_pixel_coordinates (w h x y : Nat) (hx : x < w) (hy : y < h) (hlt : w * h < 2^32) :
    pixelCell w h x y = (Shape.mk' [w,h]).coord2idx [x, h - 1 - y] := by
  have hw : w < 2^32 := by
    have : w * 1 ≤ w * h := Nat.mul_le_mul_left _ (by omega)
    omega
  rw [pixelCell_eq hx hy hlt]
  show _ = (Shape.mk' [w,h]).coord2idxLoop 1 [h - 1 - y] x
  have hd := (mk2_d hw hlt).1
  have hc := cell_lt hx hy
  show _ = u32 (x + u32 ((h - 1 - y) * (Shape.mk' [w,h]).d.getD 0 0))
  rw [hd]
  have e : (h - 1 - y) * w = w * (h - y - 1) := by rw [Nat.mul_comm, show h - 1 - y = h - y - 1 by omega]
  show _ = u32 (x + u32 ((h - 1 - y) * w))
  rw [e]
  unfold u32
  rw [Nat.mod_eq_of_lt (a := w * (h - y - 1)) (by omega), Nat.mod_eq_of_lt (by omega)]
  omega

/-- **C37**: the pixels and the cells correspond one to one. -/
theorem C37_bijection (w h : Nat) (hlt : w * h < 2^32) :
    (∀ x y, x < w → y < h → pixelCell w h x y < w * h) ∧
    (∀ x1 y1 x2 y2, x1 < w → y1 < h → x2 < w → y2 < h → pixelCell w h x1 y1 = pixelCell w h x2 y2 → x1 = x2 ∧ y1 = y2) ∧
    (∀ i < w * h, ∃ x y, x < w ∧ y < h ∧ pixelCell w h x y = i) := by
  refine ⟨?_, ?_, ?_⟩
  · intro x y hx hy
    rw [pixelCell_eq hx hy hlt]; exact cell_lt hx hy
  · intro x1 y1 x2 y2 a b c d e
    rw [pixelCell_eq a b hlt, pixelCell_eq c d hlt] at e
    obtain ⟨e1, e2⟩ := cell_inj a c e
    exact ⟨e1, by omega⟩
  · intro i hi
    have hp : 0 < w := Nat.pos_of_ne_zero (by rintro rfl; simp at hi)
    have hq : i / w < h := by rw [Nat.div_lt_iff_lt_mul hp]; rwa [Nat.mul_comm] at hi
    have hm : i % w < w := Nat.mod_lt _ hp
    have hdm := Nat.div_add_mod i w
    generalize i / w = q at hq hdm
    generalize i % w = r at hm hdm
    refine ⟨r, h - 1 - q, hm, by omega, ?_⟩
    rw [pixelCell_eq hm (by omega) hlt, show h - (h - 1 - q) - 1 = q by omega]
    exact hdm

/-- **C37**: after loading an image, the grid has the size of the image, the cell of each pixel has its brightness as velocity (cells are otherwise fresh), and
the obstacle list contains exactly the occupied cells, each once.  For every image, whatever the grid was before. -/
theorem C37_load (img : Img F) (g0 : Grid F) (hw : img.w < 2^32) (hlt : img.w * img.h < 2^32) :
    (loadMapFromImg img g0).shape = Shape.mk' [img.w, img.h] ∧ (loadMapFromImg img g0).size = img.w * img.h ∧
    (∀ x y, x < img.w → y < img.h → (loadMapFromImg img g0).vel (pixelCell img.w img.h x y) = div (img.px x y) (ofNat 255)) ∧
    (∀ i < img.w * img.h, (loadMapFromImg img g0).value i = inf ∧ (loadMapFromImg img g0).state i = .opn) ∧
    (∀ i, i ∈ (loadMapFromImg img g0).occupied ↔ i < img.w * img.h ∧ (loadMapFromImg img g0).occ i = true) ∧
    (loadMapFromImg img g0).occupied.Nodup := by
  obtain ⟨b1, b2, b3⟩ := C37_bijection img.w img.h hlt
  classical
  set v : Nat → F := fun i => div (img.px (i % img.w) (img.h - 1 - i / img.w)) (ofNat 255) with hv
  have hv' : ∀ p ∈ forXY img.w img.h, v (pixelCell img.w img.h p.1 p.2) = div (img.px p.1 p.2) (ofNat 255) := by
    intro p hp
    obtain ⟨hx, hy⟩ := mem_forXY.1 hp
    have hpos : 0 < img.w := by omega
    rw [pixelCell_eq hx hy hlt, hv]
    show div (img.px ((img.w * (img.h - p.2 - 1) + p.1) % img.w) (img.h - 1 - (img.w * (img.h - p.2 - 1) + p.1) / img.w)) (ofNat 255) = _
    rw [Nat.mul_add_mod, Nat.mod_eq_of_lt hx, Nat.mul_add_div hpos, Nat.div_eq_of_lt hx, show img.h - 1 - (img.h - p.2 - 1 + 0) = p.2 by omega]
  have he := imgCells_eq img v (forXY img.w img.h) hv' (g0.resize [img.w, img.h]) []
  set cells := (forXY img.w img.h).map (fun p => pixelCell img.w img.h p.1 p.2) with hcells
  have hl : loadMapFromImg img g0 = (withVel (g0.resize [img.w, img.h]) cells v).setOccupiedCells (cells.filter (fun i => lt (v i) (margin : F))) := by
    unfold loadMapFromImg; rw [he]; rfl
  have hmem : ∀ i, i ∈ cells ↔ i < img.w * img.h := by
    intro i
    rw [hcells, List.mem_map]
    constructor
    · rintro ⟨p, hp, rfl⟩
      obtain ⟨hx, hy⟩ := mem_forXY.1 hp
      exact b1 _ _ hx hy
    · intro hi
      obtain ⟨x, y, hx, hy, e⟩ := b3 i hi
      exact ⟨(x,y), mem_forXY.2 ⟨hx, hy⟩, e⟩
  have hc : ∀ i, (loadMapFromImg img g0).cells i = if i ∈ cells then { (g0.resize [img.w, img.h]).cells i with occupancy := v i } else (g0.resize [img.w, img.h]).cells i := by
    intro i; rw [hl]; rfl
  refine ⟨by rw [hl]; rfl, by rw [hl]; exact (mk2_d hw hlt).2, ?_, ?_, ?_, ?_⟩
  · intro x y hx hy
    rw [← hv' (x,y) (mem_forXY.2 ⟨hx, hy⟩)]
    unfold Grid.vel
    rw [hc, if_pos ((hmem _).2 (b1 _ _ hx hy))]
  · intro i hi
    unfold Grid.value Grid.state
    rw [hc, if_pos ((hmem _).2 hi)]
    exact ⟨rfl, rfl⟩
  · intro i
    have : (loadMapFromImg img g0).occupied = cells.filter (fun i => lt (v i) (margin : F)) := by rw [hl]; rfl
    rw [this, List.mem_filter, hmem]
    apply and_congr_right
    intro hi
    unfold Grid.occ
    rw [hc, if_pos ((hmem _).2 hi)]
    rfl
  · have : (loadMapFromImg img g0).occupied = cells.filter (fun i => lt (v i) (margin : F)) := by rw [hl]; rfl
    rw [this]
    apply List.Nodup.filter
    rw [hcells]
    apply List.Nodup.map_on _ (nodup_forXY img.w img.h)
    intro p hp q hq e
    obtain ⟨hx, hy⟩ := mem_forXY.1 hp
    obtain ⟨hx', hy'⟩ := mem_forXY.1 hq
    obtain ⟨e1, e2⟩ := b2 _ _ _ _ hx hy hx' hy' e
    exact Prod.ext e1 e2

/-- **C37**: plotting the occupancy map of a loaded image shows the image: size, and each pixel divided by 255 and multiplied by 255 again; plotting the map shows a pixel
as free exactly if its brightness does not count as occupied. -/
theorem C37_plot (img : Img F) (g0 : Grid F) (hw : img.w < 2^32) (hlt : img.w * img.h < 2^32) :
    (plotOccupancyMap (loadMapFromImg img g0)).w = img.w ∧ (plotOccupancyMap (loadMapFromImg img g0)).h = img.h ∧
    (plotMap (loadMapFromImg img g0)).w = img.w ∧ (plotMap (loadMapFromImg img g0)).h = img.h ∧
    (∀ x y, x < img.w → y < img.h →
      (plotOccupancyMap (loadMapFromImg img g0)).px x y = mul (div (img.px x y) (ofNat 255)) (ofNat 255) ∧
      (plotMap (loadMapFromImg img g0)).px x y = !lt (div (img.px x y) (ofNat 255)) (margin : F)) := by
  obtain ⟨h1, h2, h3, -, -, -⟩ := C37_load img g0 hw hlt
  have e0 : (loadMapFromImg img g0).shape.dims.getD 0 0 = img.w := by rw [h1]; rfl
  have e1 : (loadMapFromImg img g0).shape.dims.getD 1 0 = img.h := by rw [h1]; rfl
  refine ⟨e0, e1, e0, e1, ?_⟩
  intro x y hx hy
  have := h3 x y hx hy
  constructor
  · show mul ((loadMapFromImg img g0).vel (pixelCell _ _ x y)) (ofNat 255) = _
    rw [e0, e1, this]
  · show (!(loadMapFromImg img g0).occ (pixelCell _ _ x y)) = _
    rw [e0, e1, ← this]; rfl

/-- **C37** in exact arithmetic: the occupancy map shown is the image itself. -/
theorem C37_plot_exact (img : Img XR) (g0 : Grid XR) (hw : img.w < 2^32) (hlt : img.w * img.h < 2^32) (x y : Nat) (hx : x < img.w) (hy : y < img.h) (b : ℝ)
    (hb : img.px x y = XR.fin b) : (plotOccupancyMap (loadMapFromImg img g0)).px x y = img.px x y := by
  obtain ⟨-, -, -, -, h⟩ := C37_plot img g0 hw hlt
  rw [(h x y hx hy).1, hb]
  have e : (ofNat 255 : XR) = XR.fin 255 := by show XR.fin (((255:Nat) : Int) / ((1:Nat):ℝ)) = _; norm_num
  rw [e]
  show XR.mul (XR.div (XR.fin b) (XR.fin 255)) (XR.fin 255) = _
  simp [XR.div, XR.mul]

/-- a concrete image with three columns and two rows: the bottom left pixel goes to cell 0, the top right one to cell 5 -/
example : pixelCell 3 2 0 1 = 0 ∧ pixelCell 3 2 2 1 = 2 ∧ pixelCell 3 2 0 0 = 3 ∧ pixelCell 3 2 2 0 = 5 := by decide

/-- the hypotheses of `C37_load` and `C37_plot_exact` are met: in an image of 3x2 pixels with grey values `10x + 100y`, cell 0 gets pixel (0,1) -/
example (g0 : Grid XR) : (loadMapFromImg (⟨3, 2, fun x y => XR.fin (10*x + 100*y)⟩ : Img XR) g0).vel 0 = div (XR.fin (10*(0:Nat) + 100*(1:Nat))) (ofNat 255) := by
  have := (C37_load (⟨3, 2, fun x y => XR.fin (10*x + 100*y)⟩ : Img XR) g0 (by decide) (by decide)).2.2.1 0 1 (by decide) (by decide)
  simpa [pixelCell, u32] using this

end FMV
