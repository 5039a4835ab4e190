import Verif.Spec.Points
import Verif.Props.Image
/-!
C60: selecting points with the mouse.
-/
namespace FMV
open Spec IO Arith
variable {F : Type} [Arith F]

namespace IO
variable {w h : Nat} {flipY : Bool}

/-- the cell computed for an event -/
def evCell (flipY : Bool) (h : Nat) (e : Ev) : Nat × Nat := (intToU32 e.mx, intToU32 (if flipY then (h : Int) - 1 - e.my else e.my))

theorem intToU32_of {z : Int} (h0 : 0 ≤ z) (h1 : z < 2^32) : ((intToU32 z : Nat) : Int) = z := by
  unfold intToU32
  rw [Int.emod_eq_of_lt h0 h1, Int.toNat_of_nonneg h0]

/-- the events that end a loop -/
def ends (e : Ev) : Bool := Ev.held e && !(intToU32 e.mx == 0)

theorem clickLoop_stop (x y : Nat) (es : List Ev) (hx : x ≠ 0) : clickLoop flipY h x y es = some ((x, y), es) := by
  cases es <;> simp [clickLoop, hx]

/-- the loop skips to the first event that ends it -/
theorem clickLoop_eq : ∀ (es : List Ev) (y : Nat), clickLoop flipY h 0 y es =
    match es.dropWhile (fun e => !ends e) with
    | [] => none
    | e :: r => some (evCell flipY h e, r)
  | [], y => by simp [clickLoop]
  | e :: es, y => by
    unfold clickLoop
    rw [if_pos rfl]
    by_cases hb : e.button = true ∧ 0 ≤ e.my
    · rw [if_pos hb]
      by_cases hx : intToU32 e.mx = 0
      · rw [hx, clickLoop_eq es]
        have : ends e = false := by simp [ends, hx]
        simp [List.dropWhile, this]
      · rw [clickLoop_stop _ _ _ hx]
        have : ends e = true := by simp [ends, hx, Ev.held, hb.1, hb.2]
        simp [List.dropWhile, this, evCell]
    · rw [if_neg hb, clickLoop_eq es]
      have : ends e = false := by
        simp only [ends, Ev.held, Bool.and_eq_false_iff]
        left
        by_cases h1 : e.button = true
        · right; simp; by_contra hh; exact hb ⟨h1, by omega⟩
        · left; simpa using h1
      simp [List.dropWhile, this]

theorem dropWhile_filter {α : Type} (p : α → Bool) : ∀ l : List α, (match l.dropWhile (fun e => !p e) with
    | [] => l.filter p = [] | e :: r => l.filter p = e :: r.filter p ∧ p e = true)
  | [] => by simp
  | a :: l => by
    have := dropWhile_filter p l
    by_cases hp : p a = true
    · simp [List.dropWhile, hp]
    · have hp' : p a = false := by simpa using hp
      simp only [List.dropWhile, hp', Bool.not_false]
      simpa [hp'] using this

/-- the two selected points are those of the first two events that can end a loop -/
theorem select_eq (g : Grid F) (flipY : Bool) (evs : List Ev) : selectMapPoints g flipY evs =
    match evs.filter ends with
    | a :: b :: _ => some (evCell flipY (g.shape.dims.getD 1 0) a, evCell flipY (g.shape.dims.getD 1 0) b)
    | _ => none := by
  unfold selectMapPoints
  dsimp only
  rw [clickLoop_eq]
  have h1 := dropWhile_filter ends evs
  generalize evs.dropWhile (fun e => !ends e) = d at h1
  cases d with
  | nil => simp only at h1 ⊢; rw [h1]
  | cons a r =>
    simp only at h1 ⊢
    rw [h1.1, clickLoop_eq]
    have h2 := dropWhile_filter ends r
    generalize r.dropWhile (fun e => !ends e) = d at h2
    cases d with
    | nil => simp only at h2 ⊢; rw [h2]
    | cons b r => simp only at h2 ⊢; rw [h2.1]

/-- a click on a pixel selects the cell shown there -/
theorem evCell_selects (hlt : w * h < 2^32) (hw : w < 2^31) (hh : h < 2^31) {e : Ev} (he : Ev.Ok w h e) (hy : 0 ≤ e.my) :
    Selects F flipY w h e (evCell flipY h e) := by
  rcases he with ⟨a, b, c, d⟩ | ⟨_, c⟩
  · have e1 : ((intToU32 e.mx : Nat) : Int) = e.mx := intToU32_of a (by omega)
    have e2 : ((evCell flipY h e).2 : Int) = if flipY then (h : Int) - 1 - e.my else e.my := by
      unfold evCell
      refine intToU32_of ?_ ?_ <;> split <;> omega
    obtain ⟨z, hz⟩ := Int.eq_ofNat_of_zero_le a
    obtain ⟨y, hyy⟩ := Int.eq_ofNat_of_zero_le c
    have h1 : (evCell flipY h e).1 = z := by
      have : (evCell flipY h e).1 = intToU32 e.mx := rfl
      omega
    have h2 : (evCell flipY h e).2 = if flipY then h - 1 - y else y := by
      cases flipY
      · simp only [if_false, Bool.false_eq_true] at e2 ⊢; omega
      · simp only [if_true] at e2 ⊢; omega
    have hzw : z < w := by omega
    have hyh : y < h := by omega
    refine ⟨by omega, by rw [h2]; split <;> omega, by rw [h1]; omega, ?_⟩
    have key : shownCell flipY w h e.mx.toNat e.my.toNat = (Shape.mk' [w,h]).coord2idx [(evCell flipY h e).1, (evCell flipY h e).2] := by
      rw [h1, h2, hz, hyy]
      simp only [Int.ofNat_eq_natCast, Int.toNat_natCast]
      unfold shownCell
      split
      · exact C37_pixel_coordinates w h z y hzw hyh hlt
      · have := C37_pixel_coordinates w h z (h - 1 - y) hzw (by omega) hlt
        rw [show h - 1 - (h - 1 - y) = y by omega] at this
        rw [← this]
        unfold pixelCell
        rw [show h - (h - 1 - y) - 1 = y by omega]
    intro g hd
    unfold clickMap
    simp only [hd, List.getD_cons_zero, List.getD_cons_succ, true_and]
    rw [← key]
    cases flipY <;> rfl
  · omega

theorem clicks_of_held : ∀ (down : Bool) (es : List Ev), (down = true → ∀ e r, es = e :: r → Ev.held e = false) →
    (∀ a b l r, es = l ++ a :: b :: r → a.button = true → Ev.held b = false) → clicks down es = es.filter Ev.held
  | _, [], _, _ => rfl
  | down, e :: es, h0, h1 => by
    have ih := clicks_of_held e.button es (fun hb e' r hr => h1 e e' [] r (by rw [hr]; rfl) hb)
      (fun a b l r hr => h1 a b (e :: l) r (by rw [hr]; rfl))
    unfold clicks
    rw [ih]
    by_cases hh : Ev.held e = true
    · have hd : down = false := by
        by_contra hd
        have := h0 (by simpa using hd) e es rfl
        rw [this] at hh; exact absurd hh (by simp)
      simp [hh, hd]
    · simp [hh]

end IO

/-- **C60** (part): if the user clicks without moving the pointer while a button is down (after an event with a button down, the next one is not with a button down
inside the window) and never in the first column, then the first click gives the initial point and the second one the goal: each is the cell shown at the clicked
pixel; without two clicks the function goes on waiting. Missing, and false: drags and clicks in the first column (`C60_first_column`, `C60_drag`). -/
theorem C60_select_partial (g : Grid F) (flipY : Bool) (w h : Nat) (hd : g.shape.dims = [w, h]) (hlt : w * h < 2^32) (hw : w < 2^31) (hh : h < 2^31)
    (evs : List Ev) (hok : ∀ e ∈ evs, Ev.Ok w h e)
    (hdrag : ∀ a b l r, evs = l ++ a :: b :: r → a.button = true → Ev.held b = false)
    (hcol : ∀ e ∈ evs, Ev.held e = true → e.mx ≠ 0) :
    (∀ p q, selectMapPoints g flipY evs = some (p, q) →
      ∃ a b r, clicks false evs = a :: b :: r ∧ Selects F flipY w h a p ∧ Selects F flipY w h b q) ∧
    (selectMapPoints g flipY evs = none → (clicks false evs).length < 2) := by
  have hc : clicks false evs = evs.filter ends := by
    rw [clicks_of_held false evs (by simp) hdrag]
    apply List.filter_congr
    intro e he
    unfold ends
    cases hhe : Ev.held e with
    | false => simp
    | true =>
      have h1 := hcol e he hhe
      have h2 : 0 ≤ e.my := by simp [Ev.held] at hhe; exact hhe.2
      have h3 : intToU32 e.mx ≠ 0 := by
        rcases hok e he with ⟨a, b, _, _⟩ | ⟨_, c⟩
        · have := intToU32_of a (by omega); omega
        · omega
      simp [h3]
  have hm : ∀ e ∈ evs.filter ends, Selects F flipY w h e (evCell flipY h e) := by
    intro e he
    obtain ⟨h1, h2⟩ := List.mem_filter.1 he
    have : Ev.held e = true := by simp only [ends, Bool.and_eq_true] at h2; exact h2.1
    exact evCell_selects hlt hw hh (hok e h1) (by simp [Ev.held] at this; exact this.2)
  rw [hc, select_eq, hd]
  show (∀ p q, _ = some (p, q) → _) ∧ _
  generalize evs.filter ends = l at hm
  match l, hm with
  | [], _ => simp
  | [a], _ => simp
  | a :: b :: r, hm =>
    refine ⟨?_, by simp⟩
    intro p q he
    obtain ⟨rfl, rfl⟩ : evCell flipY h a = p ∧ evCell flipY h b = q := by simpa using he
    exact ⟨a, b, r, rfl, hm a (by simp), hm b (by simp)⟩

/-- **C60**: whatever the user does with the mouse, the points returned are cells of the map outside its first column, shown at pixels where a button was down. -/
theorem C60_inside (g : Grid F) (flipY : Bool) (w h : Nat) (hd : g.shape.dims = [w, h]) (hlt : w * h < 2^32) (hw : w < 2^31) (hh : h < 2^31)
    (evs : List Ev) (hok : ∀ e ∈ evs, Ev.Ok w h e) (p q : Nat × Nat) (hs : selectMapPoints g flipY evs = some (p, q)) :
    (∃ a ∈ evs, a.button = true ∧ Selects F flipY w h a p) ∧ (∃ b ∈ evs, b.button = true ∧ Selects F flipY w h b q) ∧ 0 < p.1 ∧ 0 < q.1 := by
  have hm : ∀ e ∈ evs.filter ends, e ∈ evs ∧ e.button = true ∧ Selects F flipY w h e (evCell flipY h e) ∧ 0 < (evCell flipY h e).1 := by
    intro e he
    obtain ⟨h1, h2⟩ := List.mem_filter.1 he
    simp only [ends, Bool.and_eq_true, Ev.held] at h2
    refine ⟨h1, h2.1.1, evCell_selects hlt hw hh (hok e h1) (by simpa using h2.1.2), ?_⟩
    have : intToU32 e.mx ≠ 0 := by simpa using h2.2
    exact Nat.pos_of_ne_zero this
  rw [select_eq, hd] at hs
  generalize evs.filter ends = l at hm hs
  match l, hm, hs with
  | a :: b :: r, hm, hs =>
    obtain ⟨rfl, rfl⟩ : evCell flipY h a = p ∧ evCell flipY h b = q := by simpa using hs
    obtain ⟨a1, a2, a3, a4⟩ := hm a (by simp)
    obtain ⟨b1, b2, b3, b4⟩ := hm b (by simp)
    exact ⟨⟨a, a1, a2, a3⟩, ⟨b, b1, b2, b3⟩, a4, b4⟩

/-- **C60 is false in the first column**: clicks there are ignored, on every map and however many there are; the function does not return. -/
theorem C60_first_column (g : Grid F) (flipY : Bool) (evs : List Ev) (h0 : ∀ e ∈ evs, Ev.held e = true → e.mx = 0) : selectMapPoints g flipY evs = none := by
  rw [select_eq]
  have : evs.filter ends = [] := by
    rw [List.filter_eq_nil_iff]
    intro e he hh
    simp only [ends, Bool.and_eq_true] at hh
    have := h0 e he hh.1
    rw [this] at hh
    exact absurd hh.2 (by decide)
  rw [this]

/-- **C60 is false for drags**: one click, with the pointer moved by one pixel before the button is released, gives both points. -/
theorem C60_drag (g : Grid F) (flipY : Bool) (w h : Nat) (hd : g.shape.dims = [w, h]) (hlt : w * h < 2^32) (hw : w < 2^31) (hh : h < 2^31)
    (x y : Nat) (hx : 0 < x) (hxw : x + 1 < w) (hy : y < h) :
    ∃ evs : List Ev, (∀ e ∈ evs, Ev.Ok w h e) ∧ (clicks false evs).length = 1 ∧
      ∃ p q, selectMapPoints g flipY evs = some (p, q) ∧ p.1 = x ∧ q.1 = x + 1 := by
  have hend : ∀ z : Nat, 0 < z → z < w → ends ⟨true, z, y⟩ = true := by
    intro z h0 h1
    have := intToU32_of (z := (z:Int)) (by omega) (by omega)
    simp only [ends, Ev.held, Bool.true_and, Bool.and_eq_true, decide_eq_true_eq, Bool.not_eq_true', beq_eq_false_iff_ne]
    refine ⟨by omega, ?_⟩
    intro h2; rw [h2] at this; simp at this; omega
  refine ⟨[⟨true, x, y⟩, ⟨true, (x + 1 : Nat), y⟩, ⟨false, (x + 1 : Nat), y⟩], ?_, ?_, evCell flipY h ⟨true, x, y⟩, evCell flipY h ⟨true, (x + 1 : Nat), y⟩, ?_, ?_, ?_⟩
  · intro e he
    simp only [List.mem_cons, List.not_mem_nil, or_false] at he
    rcases he with rfl | rfl | rfl <;> left <;> refine ⟨?_, ?_, ?_, ?_⟩ <;> dsimp only <;> omega
  · simp [clicks, Ev.held]
  · rw [select_eq, hd]
    have h3 : ends ⟨false, (x + 1 : Nat), y⟩ = false := rfl
    simp only [List.filter_cons, hend x hx (by omega), hend (x + 1) (by omega) hxw, h3, if_true]
    rfl
  · have := intToU32_of (z := (x:Int)) (by omega) (by omega)
    show intToU32 (x:Int) = x
    omega
  · have := intToU32_of (z := ((x + 1 : Nat):Int)) (by omega) (by omega)
    show intToU32 ((x + 1 : Nat):Int) = x + 1
    omega

/-- non-vacuity: two clicks on a 4 x 3 map, with pointer motion in between -/
example (g : Grid F) (hd : g.shape.dims = [4, 3]) : selectMapPoints g true [⟨false, -1, -1⟩, ⟨true, 1, 0⟩, ⟨false, 1, 0⟩, ⟨false, 2, 1⟩, ⟨true, 3, 2⟩] = some ((1, 2), (3, 0)) := by
  rw [select_eq, hd]; rfl

end FMV
