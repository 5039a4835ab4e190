import Verif.Model.Plot
import Verif.Props.Image
import Verif.Props.Geometry
/-
C37 (arrival times and states shown) and C56 (paths drawn into a picture).
-/
namespace FMV
open Arith IO
variable {F : Type} [Arith F]

namespace IO

/-- `q` is drawn in column `x` and, counted from the bottom, row `y` of the map: the point's coordinates without their decimals. -/
def DrawnAt (q : F × F) (x y : Nat) : Prop := toUns q.1 = some x ∧ toUns q.2 = some y

/-- all points of the path lie, decimals dropped, in a map of `w` x `h` cells -/
def PathInside (w h : Nat) (path : List (F × F)) : Prop := ∀ q ∈ path, ∃ x y, DrawnAt q x y ∧ x < w ∧ y < h

theorem at_lt {α : Type} (p : Pic α) {x y k : Nat} (hx : x < p.w) (hy : y < p.h) (hk : k < p.c) : p.at_ x y k < p.w * p.h * p.c := by
  unfold Pic.at_
  have h1 : x + y * p.w < p.w * p.h := by
    have : y * p.w + p.w ≤ p.h * p.w := by rw [← Nat.succ_mul]; exact Nat.mul_le_mul_right _ hy
    rw [Nat.mul_comm p.w]; omega
  have h2 : k * p.w * p.h + p.w * p.h ≤ p.w * p.h * p.c := by
    have : (k + 1) * (p.w * p.h) ≤ p.c * (p.w * p.h) := Nat.mul_le_mul_right _ hk
    rw [Nat.mul_comm _ p.c]
    rw [Nat.succ_mul, ← Nat.mul_assoc] at this
    exact this
  omega

theorem at_decode {α : Type} (p : Pic α) {x y k : Nat} (hx : x < p.w) (hy : y < p.h) :
    p.at_ x y k % p.w = x ∧ p.at_ x y k / p.w % p.h = y ∧ p.at_ x y k / p.w / p.h = k := by
  have hw : 0 < p.w := by omega
  have hh : 0 < p.h := by omega
  have e : p.at_ x y k = x + p.w * (y + p.h * k) := by unfold Pic.at_; ring
  have e1 : p.at_ x y k / p.w = y + p.h * k := by rw [e, Nat.add_mul_div_left _ _ hw, Nat.div_eq_of_lt hx, Nat.zero_add]
  refine ⟨by rw [e, Nat.add_mul_mod_self_left, Nat.mod_eq_of_lt hx], ?_, ?_⟩
  · rw [e1, Nat.add_mul_mod_self_left, Nat.mod_eq_of_lt hy]
  · rw [e1, Nat.add_mul_div_left _ _ hh, Nat.div_eq_of_lt hy, Nat.zero_add]

theorem at_inj {α : Type} (p : Pic α) {x y k x' y' k' : Nat} (hx : x < p.w) (hy : y < p.h) (hx' : x' < p.w) (hy' : y' < p.h)
    (h : p.at_ x y k = p.at_ x' y' k') : x = x' ∧ y = y' ∧ k = k' := by
  obtain ⟨a, b, c⟩ := at_decode p (k := k) hx hy
  obtain ⟨a', b', c'⟩ := at_decode p (k := k') hx' hy'
  rw [h] at a b c
  exact ⟨a.symm.trans a', b.symm.trans b', c.symm.trans c'⟩

/-- writing several channels of one pixel -/
theorem puts {α : Type} (v : α) (x y : Nat) : ∀ (ks : List Nat) (p : Pic α), x < p.w → y < p.h → (∀ k ∈ ks, k < p.c) →
    ∃ p', ks.foldlM (fun p k => p.put x y k v) p = some p' ∧ p'.w = p.w ∧ p'.h = p.h ∧ p'.c = p.c ∧
      ∀ x' y' k', x' < p.w → y' < p.h → (x' = x ∧ y' = y ∧ k' ∈ ks → p'.get x' y' k' = v) ∧ (¬(x' = x ∧ y' = y ∧ k' ∈ ks) → p'.get x' y' k' = p.get x' y' k') := by
  intro ks
  induction ks with
  | nil => intro p _ _ _; exact ⟨p, rfl, rfl, rfl, rfl, fun x' y' k' _ _ => ⟨fun h => by simp at h, fun _ => rfl⟩⟩
  | cons k ks ih =>
    intro p hx hy hk
    have hput : p.put x y k v = some { p with data := fun o => if o = p.at_ x y k then v else p.data o } :=
      if_pos (at_lt p hx hy (hk k (by simp)))
    obtain ⟨p', h1, h2, h3, h4, h5⟩ := ih { p with data := fun o => if o = p.at_ x y k then v else p.data o } hx hy (fun j hj => hk j (by simp [hj]))
    refine ⟨p', ?_, h2, h3, h4, ?_⟩
    · rw [List.foldlM_cons, hput]; exact h1
    · intro x' y' k' hx' hy'
      obtain ⟨a, b⟩ := h5 x' y' k' hx' hy'
      have hget : (Pic.get { p with data := fun o => if o = p.at_ x y k then v else p.data o } x' y' k' : α) =
          if p.at_ x' y' k' = p.at_ x y k then v else p.get x' y' k' := rfl
      constructor
      · rintro ⟨rfl, rfl, hk'⟩
        by_cases hks : k' ∈ ks
        · exact a ⟨rfl, rfl, hks⟩
        · have : k' = k := by rcases List.mem_cons.1 hk' with h | h; exacts [h, absurd h hks]
          subst this
          rw [b (fun h => hks h.2.2), hget, if_pos rfl]
      · intro hn
        rw [b (fun h => hn ⟨h.1, h.2.1, List.mem_cons_of_mem _ h.2.2⟩), hget, if_neg]
        intro e
        obtain ⟨e1, e2, e3⟩ := at_inj p hx' hy' hx hy e
        exact hn ⟨e1, e2, by simp [e3]⟩

theorem row {h b : Nat} (hb : b < h) (hh : h < 2^31) : u32sub (u32sub h b) 1 = h - 1 - b := by
  unfold u32sub
  have e1 : (h + (4294967296 - b % 4294967296)) % 4294967296 = h - b := by
    rw [Nat.mod_eq_of_lt (a := b) (by omega), show h + (4294967296 - b) = 4294967296 + (h - b) by omega, Nat.add_mod_left, Nat.mod_eq_of_lt (by omega)]
  rw [e1, show h - b + (4294967296 - 1 % 4294967296) = 4294967296 + (h - 1 - b) by omega, Nat.add_mod_left, Nat.mod_eq_of_lt (by omega)]

/-- drawing a path -/
theorem drawPath_spec {α : Type} (ks : List Nat) (v : α) : ∀ (path : List (F × F)) (p : Pic α), PathInside p.w p.h path → p.h < 2^31 → (∀ k ∈ ks, k < p.c) →
    ∃ p', drawPath ks v path p = some p' ∧ p'.w = p.w ∧ p'.h = p.h ∧ p'.c = p.c ∧
      ∀ x y k, x < p.w → y < p.h →
        ((∃ q ∈ path, DrawnAt q x (p.h - 1 - y)) ∧ k ∈ ks → p'.get x y k = v) ∧
        (¬((∃ q ∈ path, DrawnAt q x (p.h - 1 - y)) ∧ k ∈ ks) → p'.get x y k = p.get x y k) := by
  intro path
  induction path with
  | nil => intro p _ _ _; exact ⟨p, rfl, rfl, rfl, rfl, fun x y k _ _ => ⟨fun h => by simp at h, fun _ => rfl⟩⟩
  | cons q path ih =>
    intro p hin hh hk
    obtain ⟨a, b, ⟨hqa, hqb⟩, ha, hb⟩ := hin q (by simp)
    have hpix : pathPixel p.h q = some (a, p.h - 1 - b) := by unfold pathPixel; rw [hqa, hqb]; simp only [row hb hh]
    obtain ⟨p1, h1, h2, h3, h4, h5⟩ := puts v a (p.h - 1 - b) ks p ha (by omega) hk
    have hd : drawPoint ks v p q = some p1 := by unfold drawPoint; rw [hpix]; exact h1
    obtain ⟨p', g1, g2, g3, g4, g5⟩ := ih p1 (by rw [h2, h3]; intro r hr; exact hin r (by simp [hr])) (by rw [h3]; exact hh) (by rw [h4]; exact hk)
    refine ⟨p', ?_, g2.trans h2, g3.trans h3, g4.trans h4, ?_⟩
    · unfold drawPath; rw [List.foldlM_cons, hd]; exact g1
    · intro x y k hx hy
      obtain ⟨c1, c2⟩ := g5 x y k (by rw [h2]; exact hx) (by rw [h3]; exact hy)
      obtain ⟨d1, d2⟩ := h5 x y k hx hy
      rw [h3] at c1 c2
      by_cases hr : (∃ q ∈ path, DrawnAt q x (p.h - 1 - y)) ∧ k ∈ ks
      · exact ⟨fun _ => c1 hr, fun hn => absurd ⟨by obtain ⟨⟨r, hr1, hr2⟩, _⟩ := hr; exact ⟨r, by simp [hr1], hr2⟩, hr.2⟩ hn⟩
      · rw [c2 hr]
        have key : (x = a ∧ y = p.h - 1 - b ∧ k ∈ ks) ↔ ((∃ q' ∈ q :: path, DrawnAt q' x (p.h - 1 - y)) ∧ k ∈ ks) := by
          constructor
          · rintro ⟨rfl, rfl, hk⟩
            refine ⟨⟨q, by simp, hqa, ?_⟩, hk⟩
            rw [hqb]; congr 1; omega
          · rintro ⟨⟨r, hr1, hr2⟩, hk⟩
            rcases List.mem_cons.1 hr1 with rfl | hr1
            · obtain ⟨e1, e2⟩ := hr2
              rw [hqa] at e1; rw [hqb] at e2
              refine ⟨(Option.some.inj e1).symm, ?_, hk⟩
              have := Option.some.inj e2
              omega
            · exact absurd ⟨⟨r, hr1, hr2⟩, hk⟩ hr
        rw [← key]
        exact ⟨d1, d2⟩

theorem fill_get {α : Type} (w h c : Nat) (f : Nat → Nat → Nat → α) {x y k : Nat} (hx : x < w) (hy : y < h) : (Pic.fill w h c f).get x y k = f x y k := by
  obtain ⟨a, b, c'⟩ := at_decode (Pic.fill w h c f) (k := k) (x := x) (y := y) hx hy
  show f _ _ _ = _
  rw [show (Pic.fill w h c f).at_ x y k % w = x from a, show (Pic.fill w h c f).at_ x y k / w % h = y from b,
    show (Pic.fill w h c f).at_ x y k / w / h = k from c']

/-- drawing a path into a filled image -/
theorem drawFill {α : Type} (w h c : Nat) (f : Nat → Nat → Nat → α) (ks : List Nat) (v : α) (path : List (F × F)) (hp : PathInside w h path) (hh : h < 2^31)
    (hk : ∀ k ∈ ks, k < c) :
    ∃ p', drawPath ks v path (Pic.fill w h c f) = some p' ∧ p'.w = w ∧ p'.h = h ∧ p'.c = c ∧
      ∀ x y k, x < w → y < h →
        ((∃ q ∈ path, DrawnAt q x (h - 1 - y)) ∧ k ∈ ks → p'.get x y k = v) ∧
        (¬((∃ q ∈ path, DrawnAt q x (h - 1 - y)) ∧ k ∈ ks) → p'.get x y k = f x y k) := by
  obtain ⟨p', h1, h2, h3, h4, h5⟩ := drawPath_spec ks v path (Pic.fill w h c f) hp hh hk
  refine ⟨p', h1, h2, h3, h4, fun x y k hx hy => ?_⟩
  have := h5 x y k hx hy
  rw [fill_get _ _ _ _ hx hy] at this
  exact this

end IO

/-- **C56**: `plotMapPath` stays inside its buffer for every path whose points lie in the map, and shows: black for occupied cells; for free cells, red where a point of the
path is drawn and white elsewhere.  Pixel `(x, y)` shows the cell with coordinates `(x, h - 1 - y)` (`C37_pixel_coordinates`). -/
theorem C56_plotMapPath (g : Grid F) (w h : Nat) (hs : g.shape = Shape.mk' [w, h]) (hh : h < 2^31) (path : List (F × F)) (hp : PathInside w h path) :
    ∃ p, plotMapPath g path = some p ∧ p.w = w ∧ p.h = h ∧ p.c = 3 ∧
      ∀ x y k, x < w → y < h →
        ((∃ q ∈ path, DrawnAt q x (h - 1 - y)) ∧ (k = 1 ∨ k = 2) → p.get x y k = zero) ∧
        (¬((∃ q ∈ path, DrawnAt q x (h - 1 - y)) ∧ (k = 1 ∨ k = 2)) →
          p.get x y k = if g.occ (pixelCell w h x y) then ofNat 0 else ofNat 255) := by
  have e0 : g.shape.dims.getD 0 0 = w := by rw [hs]; rfl
  have e1 : g.shape.dims.getD 1 0 = h := by rw [hs]; rfl
  obtain ⟨p, h1, h2, h3, h4, h5⟩ := drawFill w h 3
    (fun x y _ => if g.occ (pixelCell w h x y) then (ofNat 0 : F) else ofNat 255) [1, 2] (zero : F) path hp hh (by decide)
  refine ⟨p, ?_, h2, h3, h4, ?_⟩
  · unfold plotMapPath; simp only [e0, e1]; exact h1
  · intro x y k hx hy
    have := h5 x y k hx hy
    simpa using this

/-- **C56**: the same for `plotOccupancyPath`: the free-space brightness, and zero in the channels 1 and 2 where the path is drawn. -/
theorem C56_plotOccupancyPath (g : Grid F) (w h : Nat) (hs : g.shape = Shape.mk' [w, h]) (hh : h < 2^31) (path : List (F × F)) (hp : PathInside w h path) :
    ∃ p, plotOccupancyPath g path = some p ∧ p.w = w ∧ p.h = h ∧ p.c = 3 ∧
      ∀ x y k, x < w → y < h →
        ((∃ q ∈ path, DrawnAt q x (h - 1 - y)) ∧ (k = 1 ∨ k = 2) → p.get x y k = zero) ∧
        (¬((∃ q ∈ path, DrawnAt q x (h - 1 - y)) ∧ (k = 1 ∨ k = 2)) → p.get x y k = mul (g.vel (pixelCell w h x y)) (ofNat 255)) := by
  have e0 : g.shape.dims.getD 0 0 = w := by rw [hs]; rfl
  have e1 : g.shape.dims.getD 1 0 = h := by rw [hs]; rfl
  obtain ⟨p, h1, h2, h3, h4, h5⟩ := drawFill w h 3
    (fun x y _ => mul (g.vel (pixelCell w h x y)) (ofNat 255)) [1, 2] (zero : F) path hp hh (by decide)
  refine ⟨p, ?_, h2, h3, h4, ?_⟩
  · unfold plotOccupancyPath; simp only [e0, e1]; exact h1
  · intro x y k hx hy
    have := h5 x y k hx hy
    simpa using this

/-- **C56**: `plotArrivalTimesPath` shows 255 where the path is drawn and the arrival time relative to the largest one elsewhere. -/
theorem C56_plotArrivalTimesPath (g : Grid F) (w h : Nat) (hs : g.shape = Shape.mk' [w, h]) (hh : h < 2^31) (path : List (F × F)) (hp : PathInside w h path) :
    ∃ p, plotArrivalTimesPath g path = some p ∧ p.w = w ∧ p.h = h ∧ p.c = 1 ∧
      ∀ x y, x < w → y < h →
        ((∃ q ∈ path, DrawnAt q x (h - 1 - y)) → p.get x y 0 = ofNat 255) ∧
        ((¬ ∃ q ∈ path, DrawnAt q x (h - 1 - y)) → p.get x y 0 = (plotArrivalTimes g).px x y) := by
  have e0 : g.shape.dims.getD 0 0 = w := by rw [hs]; rfl
  have e1 : g.shape.dims.getD 1 0 = h := by rw [hs]; rfl
  obtain ⟨p, h1, h2, h3, h4, h5⟩ := drawFill w h 1
    (fun x y _ => mul (div (g.value (pixelCell w h x y)) g.getMaxValue) (ofNat 255)) [0] (ofNat 255 : F) path hp hh (by decide)
  refine ⟨p, ?_, h2, h3, h4, ?_⟩
  · unfold plotArrivalTimesPath; simp only [e0, e1]; exact h1
  · intro x y hx hy
    have := h5 x y 0 hx hy
    unfold plotArrivalTimes
    simp only [e0, e1]
    simpa using this

/-- **C56**: `plotMapPaths` with at most two paths stays inside its buffer: the first path clears the channels 0 and 1, the second one the channels 1 and 2. -/
theorem C56_plotMapPaths_two_partial (g : Grid F) (w h : Nat) (hs : g.shape = Shape.mk' [w, h]) (hh : h < 2^31) (p1 p2 : List (F × F)) (hp1 : PathInside w h p1)
    (hp2 : PathInside w h p2) :
    ∃ p, plotMapPaths g [p1, p2] = some p ∧ p.w = w ∧ p.h = h ∧ p.c = 3 ∧
      ∀ x y k, x < w → y < h →
        (((∃ q ∈ p1, DrawnAt q x (h - 1 - y)) ∧ k ≤ 1) ∨ ((∃ q ∈ p2, DrawnAt q x (h - 1 - y)) ∧ (k = 1 ∨ k = 2)) → p.get x y k = zero) ∧
        (¬(((∃ q ∈ p1, DrawnAt q x (h - 1 - y)) ∧ k ≤ 1) ∨ ((∃ q ∈ p2, DrawnAt q x (h - 1 - y)) ∧ (k = 1 ∨ k = 2))) →
          p.get x y k = if g.occ (pixelCell w h x y) then ofNat 0 else ofNat 255) := by
  have e0 : g.shape.dims.getD 0 0 = w := by rw [hs]; rfl
  have e1 : g.shape.dims.getD 1 0 = h := by rw [hs]; rfl
  obtain ⟨a, a1, a2, a3, a4, a5⟩ := drawFill w h 3
    (fun x y _ => if g.occ (pixelCell w h x y) then (ofNat 0 : F) else ofNat 255) [0, 1] (zero : F) p1 hp1 hh (by decide)
  have a2' : a.w = w := a2
  have a3' : a.h = h := a3
  have a4' : a.c = 3 := a4
  obtain ⟨b, b1, b2, b3, b4, b5⟩ := drawPath_spec [1, 2] (zero : F) p2 a (by rw [a2', a3']; exact hp2) (by rw [a3']; exact hh) (by rw [a4']; decide)
  refine ⟨b, ?_, b2.trans a2', b3.trans a3', b4.trans a4', ?_⟩
  · unfold plotMapPaths; simp only [e0, e1]
    unfold drawPaths
    rw [a1]
    show drawPaths 1 [p2] a = _
    unfold drawPaths
    rw [b1]
    rfl
  · intro x y k hx hy
    have hA := a5 x y k hx hy
    have hB := b5 x y k (by rw [a2']; exact hx) (by rw [a3']; exact hy)
    rw [a3'] at hB
    have m1 : k ∈ [0, 1] ↔ k ≤ 1 := by simp; omega
    have m2 : k ∈ [1, 2] ↔ (k = 1 ∨ k = 2) := by simp
    rw [m1] at hA
    rw [m2] at hB
    constructor
    · intro hor
      by_cases h2 : (∃ q ∈ p2, DrawnAt q x (h - 1 - y)) ∧ (k = 1 ∨ k = 2)
      · exact hB.1 h2
      · rw [hB.2 h2]; exact hA.1 (hor.resolve_right h2)
    · intro hn
      rw [hB.2 (fun h => hn (Or.inr h)), hA.2 (fun h => hn (Or.inl h))]

/-- **C56**, refuted for three paths: `plotMapPaths` writes beyond the end of the image buffer as soon as a third path has a point (inside the map). -/
theorem C56_refuted_three_paths (g : Grid F) (w h : Nat) (hs : g.shape = Shape.mk' [w, h]) (hh : h < 2^31) (p1 p2 : List (F × F)) (hp1 : PathInside w h p1)
    (hp2 : PathInside w h p2) (q : F × F) (p3 : List (F × F)) (hp3 : PathInside w h (q :: p3)) (more : List (List (F × F))) :
    plotMapPaths g (p1 :: p2 :: (q :: p3) :: more) = none := by
  have e0 : g.shape.dims.getD 0 0 = w := by rw [hs]; rfl
  have e1 : g.shape.dims.getD 1 0 = h := by rw [hs]; rfl
  obtain ⟨a, a1, a2, a3, a4, -⟩ := drawFill w h 3
    (fun x y _ => if g.occ (pixelCell w h x y) then (ofNat 0 : F) else ofNat 255) [0, 1] (zero : F) p1 hp1 hh (by decide)
  have a2' : a.w = w := a2
  have a3' : a.h = h := a3
  have a4' : a.c = 3 := a4
  obtain ⟨b, b1, b2, b3, b4, -⟩ := drawPath_spec [1, 2] (zero : F) p2 a (by rw [a2', a3']; exact hp2) (by rw [a3']; exact hh) (by rw [a4']; decide)
  obtain ⟨x, y, ⟨hx, hy⟩, hxw, hyh⟩ := hp3 q (by simp)
  have hpix : pathPixel b.h q = some (x, h - 1 - y) := by unfold pathPixel; rw [hx, hy, b3, a3']; simp only [row hyh hh]
  obtain ⟨c, c1, c2, c3, c4, -⟩ := puts (zero : F) x (h - 1 - y) [2] b (by rw [b2, a2']; exact hxw) (by rw [b3, a3']; omega) (by rw [b4, a4']; decide)
  have hput : b.put x (h - 1 - y) 2 zero = some c := by
    rw [List.foldlM_cons] at c1
    revert c1
    cases b.put x (h - 1 - y) 2 (zero : F) with
    | none => intro c1; cases c1
    | some z => intro c1; exact c1
  have hbad : c.put x (h - 1 - y) 3 (zero : F) = none := by
    unfold Pic.put
    rw [if_neg]
    unfold Pic.at_
    rw [c2, c3, c4, b2, b3, b4, a2', a3', a4']
    have : 3 * w * h = w * h * 3 := by ring
    omega
  unfold plotMapPaths; simp only [e0, e1]
  unfold drawPaths
  rw [a1]
  show drawPaths 1 (p2 :: (q :: p3) :: more) a = none
  unfold drawPaths
  rw [b1]
  show drawPaths 2 ((q :: p3) :: more) b = none
  unfold drawPaths drawPath
  rw [List.foldlM_cons]
  have : drawPoint [2, 3] (zero : F) b q = none := by
    unfold drawPoint
    rw [hpix]
    show [2, 3].foldlM _ b = none
    rw [List.foldlM_cons, hput]
    show (some c).bind (fun i => [3].foldlM _ i) = none
    rw [Option.bind_some, List.foldlM_cons]
    show (c.put x (h - 1 - y) 3 (zero : F)).bind _ = none
    rw [hbad]
    rfl
  rw [this]
  rfl

theorem XR.toUns_fin {r : ℝ} (h0 : 0 ≤ r) (h1 : r < 2^31) : toUns (XR.fin r) = some ⌊r⌋.toNat := by
  have hf : ⌊r⌋ < 2147483648 := by
    rw [Int.floor_lt]; norm_num; linarith
  have hp : 0 ≤ ⌊r⌋ := Int.floor_nonneg.2 h0
  have : truncInt (XR.fin r) = some ⌊r⌋ := by
    show (let t : ℤ := if 0 ≤ r then ⌊r⌋ else ⌈r⌉; if -2147483648 ≤ t ∧ t < 2147483648 then some t else none) = _
    simp only [if_pos h0]
    exact if_pos ⟨by omega, hf⟩
  unfold toUns
  rw [this]
  exact if_pos hp

/-- In exact arithmetic every path of points with coordinates in `[0, w) x [0, h)` meets the hypothesis of the theorems above. -/
theorem C56_inside (w h : Nat) (hw : w < 2^31) (hh : h < 2^31) (path : List (ℝ × ℝ)) (hp : ∀ q ∈ path, 0 ≤ q.1 ∧ q.1 < w ∧ 0 ≤ q.2 ∧ q.2 < h) :
    PathInside w h (path.map (fun q => (XR.fin q.1, XR.fin q.2))) := by
  intro q hq
  obtain ⟨r, hr, rfl⟩ := List.mem_map.1 hq
  obtain ⟨a, b, c, d⟩ := hp r hr
  have hw' : (w : ℝ) ≤ 2^31 := by exact_mod_cast hw.le
  have hh' : (h : ℝ) ≤ 2^31 := by exact_mod_cast hh.le
  refine ⟨_, _, ⟨XR.toUns_fin a (by linarith), XR.toUns_fin c (by linarith)⟩, ?_, ?_⟩
  · have : ⌊r.1⌋ < (w : ℤ) := by rw [Int.floor_lt]; exact_mod_cast b
    have := Int.floor_nonneg.2 a
    omega
  · have : ⌊r.2⌋ < (h : ℤ) := by rw [Int.floor_lt]; exact_mod_cast d
    have := Int.floor_nonneg.2 c
    omega

/-- **Finding** (C56): the pixel drawn is not always that of the cell the path goes through.  The gradient descent rounds to the nearest cell, the plotter drops the
decimals: a coordinate whose decimals are at least one half belongs to cell `n+1` and is drawn in column (row) `n`. -/
theorem C56_refuted_cell (r : ℝ) (n : Nat) (hn : n + 1 < 2^31) (h1 : (n : ℝ) + 1/2 ≤ r) (h2 : r < n + 1) :
    GD.toCoord [XR.fin r] = some [n + 1] ∧ toUns (XR.fin r) = some n := by
  have hn' : (n : ℝ) + 1 < 2^31 := by exact_mod_cast hn
  have hpos : (0:ℝ) ≤ n := Nat.cast_nonneg n
  constructor
  · have hfl : ⌊r + 1/2⌋ = (n : ℤ) + 1 := by
      rw [Int.floor_eq_iff]; push_cast; constructor <;> linarith
    have e : truncInt (add (XR.fin r) (ofRat 1 2)) = some ((n : ℤ) + 1) := by
      have : add (XR.fin r) (ofRat 1 2) = XR.fin (r + 1/2) := by
        show XR.add (XR.fin r) (XR.fin (((1:Int):ℝ) / ((2:Nat):ℝ))) = _
        simp [XR.add]
      rw [this]
      show (let t : ℤ := if 0 ≤ r + 1/2 then ⌊r + 1/2⌋ else ⌈r + 1/2⌉; if -2147483648 ≤ t ∧ t < 2147483648 then some t else none) = _
      have h0 : 0 ≤ r + 1/2 := by linarith
      simp only [if_pos h0, hfl]
      exact if_pos ⟨by omega, by omega⟩
    unfold GD.toCoord
    simp only [List.mapM_cons, List.mapM_nil, e]
    show some [GD.toU32 ((n:ℤ) + 1)] = _
    unfold GD.toU32
    rw [Int.emod_eq_of_lt (by omega) (by omega)]
    rfl
  · rw [XR.toUns_fin (by linarith) (by linarith)]
    have : ⌊r⌋ = (n : ℤ) := by rw [Int.floor_eq_iff]; push_cast; constructor <;> linarith
    rw [this]; rfl

/-- **C37**: the arrival-time picture before colouring: the size of the map; a reached cell shows its arrival time as a fraction of the largest finite one, times 255, which lies
between 0 and 255; a cell that was not reached shows infinity. -/
theorem C37_plot_times (g : Grid XR) (w h : Nat) (hs : g.shape = Shape.mk' [w, h]) (hlt : w * h < 2^32) (hw : w < 2^32) (M : ℝ) (hM : g.getMaxValue = XR.fin M) (hM0 : 0 < M) :
    (plotArrivalTimes g).w = w ∧ (plotArrivalTimes g).h = h ∧
    ∀ x y, x < w → y < h →
      (∀ t, 0 ≤ t → g.value (pixelCell w h x y) = XR.fin t → (plotArrivalTimes g).px x y = XR.fin (255 * t / M) ∧ 0 ≤ 255 * t / M ∧ 255 * t / M ≤ 255) ∧
      (g.value (pixelCell w h x y) = XR.pinf → (plotArrivalTimes g).px x y = XR.pinf) := by
  have e0 : g.shape.dims.getD 0 0 = w := by rw [hs]; rfl
  have e1 : g.shape.dims.getD 1 0 = h := by rw [hs]; rfl
  have e255 : (ofNat 255 : XR) = XR.fin 255 := by show XR.fin (((255:Nat) : Int) / ((1:Nat):ℝ)) = _; norm_num
  refine ⟨e0, e1, fun x y hx hy => ?_⟩
  have hpx : (plotArrivalTimes g).px x y = mul (div (g.value (pixelCell w h x y)) g.getMaxValue) (ofNat 255) := by
    unfold plotArrivalTimes; simp only [e0, e1]
  rw [hpx, hM, e255]
  constructor
  · intro t ht hv
    have hmax := (C06_getMaxValue XR.ltLaws g).2.1 (pixelCell w h x y) (by
      rw [pixelCell_eq hx hy hlt]
      show _ < g.shape.ncells
      rw [hs, (mk2_d hw hlt).2]; exact cell_lt hx hy) (by rw [hv]; rfl)
    rw [hM, hv] at hmax
    have hle : t ≤ M := by
      have : XR.lt (XR.fin M) (XR.fin t) = false := hmax
      simpa [XR.lt] using this
    refine ⟨?_, by positivity, ?_⟩
    · rw [hv]
      show XR.mul (XR.div (XR.fin t) (XR.fin M)) (XR.fin 255) = _
      simp only [XR.div, hM0.ne', if_false, XR.mul]
      congr 1; ring
    · rw [div_le_iff₀ hM0]; nlinarith
  · intro hv
    rw [hv]
    show XR.mul (XR.div XR.pinf (XR.fin M)) (XR.fin 255) = _
    simp [XR.div, XR.mul, hM0.not_gt, hM0.le, hM0, XR.infSign]

/-- **C37**: the picture of the states: frozen cells black, cells of the narrow band 127, open cells white. -/
theorem C37_plot_states (g : Grid F) (w h : Nat) (hs : g.shape = Shape.mk' [w, h]) :
    (plotFMStates g).w = w ∧ (plotFMStates g).h = h ∧
    ∀ x y, ((plotFMStates g).px x y = 0 ↔ g.state (pixelCell w h x y) = .frozen) ∧ ((plotFMStates g).px x y = 127 ↔ g.state (pixelCell w h x y) = .narrow) ∧
      ((plotFMStates g).px x y = 255 ↔ g.state (pixelCell w h x y) = .opn) := by
  have e0 : g.shape.dims.getD 0 0 = w := by rw [hs]; rfl
  have e1 : g.shape.dims.getD 1 0 = h := by rw [hs]; rfl
  refine ⟨e0, e1, fun x y => ?_⟩
  unfold plotFMStates
  simp only [e0, e1]
  cases g.state (pixelCell w h x y) <;> simp

/-- a concrete path of two points on a 3 x 2 map: the hypotheses are met, and the second point, in the middle of cell 2 but for a quarter, is drawn in column 1 -/
example : PathInside 3 2 [((XR.fin 0 : XR), XR.fin 0), (XR.fin (7/4), XR.fin 1)] ∧ GD.toCoord [XR.fin (7/4)] = some [2] ∧ toUns (XR.fin (7/4)) = some 1 := by
  refine ⟨?_, C56_refuted_cell (7/4) 1 (by norm_num) (by norm_num) (by norm_num)⟩
  have := C56_inside 3 2 (by norm_num) (by norm_num) [(0, 0), (7/4, 1)] (by
    intro q hq
    simp only [List.mem_cons, List.not_mem_nil, or_false] at hq
    rcases hq with rfl | rfl <;> norm_num)
  simpa using this

/-- the hypotheses of `C56_refuted_three_paths` are met: three one-point paths on a 3 x 2 map -/
example (g : Grid XR) (hs : g.shape = Shape.mk' [3, 2]) : plotMapPaths g [[(XR.fin 0, XR.fin 0)], [], [(XR.fin 1, XR.fin 1)]] = none := by
  have e : ∀ a b : ℝ, (0 ≤ a ∧ a < 3 ∧ 0 ≤ b ∧ b < 2) → PathInside 3 2 [((XR.fin a : XR), XR.fin b)] := by
    intro a b h
    have := C56_inside 3 2 (by norm_num) (by norm_num) [(a, b)] (by
      intro q hq; rw [List.mem_singleton.1 hq]; exact_mod_cast h)
    simpa using this
  exact C56_refuted_three_paths g 3 2 hs (by norm_num) _ [] (e 0 0 (by norm_num)) (by intro q hq; cases hq) _ [] (e 1 1 (by norm_num)) []

end FMV
