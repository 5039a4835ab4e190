import Verif.Model.GD
import Verif.Spec.Path
import Verif.Props.FM2
import Mathlib.Data.List.GetD
/-!
# C35: paths extracted by gradient descent
-/
set_option linter.unusedSectionVars false
set_option linter.unusedVariables false
namespace FMV
open Arith Spec Shape
namespace GD

theorem mapM_some {α β : Type} {f : α → Option β} : ∀ {l : List α} {l' : List β}, l.mapM f = some l' →
    l'.length = l.length ∧ ∀ (i : Nat) (x : α), l[i]? = some x → ∃ y, l'[i]? = some y ∧ f x = some y := by
  intro l
  induction l with
  | nil => intro l' h; simp at h; subst h; simp
  | cons a l ih =>
    intro l' h
    rw [List.mapM_cons] at h
    cases ha : f a with
    | none => rw [ha] at h; simp at h
    | some b =>
      rw [ha] at h
      cases hl : l.mapM f with
      | none => rw [hl] at h; simp at h
      | some bs =>
        rw [hl] at h
        simp at h
        subst h
        obtain ⟨h1, h2⟩ := ih hl
        refine ⟨by simp [h1], ?_⟩
        intro i x hi
        cases i with
        | zero => simp at hi; subst hi; exact ⟨b, rfl, ha⟩
        | succ i => simpa using h2 i x (by simpa using hi)

open XR

theorem stride_eq {dims : List Nat} (hf : Fits dims (2^31+1)) {i : Nat} (hi : i < dims.length) : stride (Shape.mk' dims) i = strideProd dims i := by
  unfold stride
  split
  · next h => subst h; simp [strideProd]
  · next h =>
    rw [show (Shape.mk' dims).dims = dims from rfl, partials_getD dims 1 one_pos hf.pos (by have := hf.lt; omega) (i-1) (by omega)]
    rw [one_mul, Nat.sub_add_cancel (by omega)]; rfl

theorem strideProd_le {dims : List Nat} (hf : Fits dims (2^31+1)) (i : Nat) : strideProd dims i ≤ dims.prod := by
  have := List.take_append_drop i dims
  have h2 : (dims.take i).prod * (dims.drop i).prod = dims.prod := by rw [← List.prod_append, this]
  have h3 : 0 < dims.prod := List.prod_pos hf.pos
  unfold strideProd
  exact Nat.le_of_dvd h3 ⟨_, h2.symm⟩

variable {dims : List Nat} {g : Grid XR}

theorem neg2 : ((2:ℝ) < 0) = False := by simp

theorem two_eq : (Arith.ofRat 2 1 : XR) = fin 2 := by show fin ((2:ℤ) / ((1:Nat):ℝ)) = fin 2; norm_num

/-- the slope computed by the code; `nan` only between two unreached cells -/
theorem grad_spec (hf : Fits dims (2^31+1)) (hs : g.shape = Shape.mk' dims) (hg : ∀ i, i < dims.prod → GoodT (g.value i)) {idx i : Nat} (hidx : idx < dims.prod)
    (hi : i < dims.length) {r : XR} (h : grad g idx i = some r) :
    strideProd dims i ≤ idx ∧ idx + strideProd dims i < dims.prod ∧
    (r = nan ∨ ∃ x, r = fin x ∧ IsSlope (g.value (idx - strideProd dims i)) (g.value (idx + strideProd dims i)) x) := by
  have hlt := hf.lt
  have hsl := strideProd_le hf i
  have hnc : g.shape.ncells = dims.prod := by rw [hs]; exact mk'_ncells (hf.mono (by norm_num))
  unfold grad at h
  rw [hs, stride_eq hf hi] at h
  have h1 : strideProd dims i ≤ idx := by
    by_contra hc
    have : u32sub idx (strideProd dims i) = idx + 4294967296 - strideProd dims i := by
      rw [u32sub_of_gt (by omega) (by omega)]; omega
    have h3 : read g (u32sub idx (strideProd dims i)) = none := by
      unfold read
      rw [this, hnc, if_neg (by omega)]
    rw [h3] at h
    cases h
  rw [u32sub_of_le h1 (by omega), u32_of_lt (by omega)] at h
  have h2 : idx + strideProd dims i < dims.prod := by
    by_contra hc
    have h3 : read g (idx + strideProd dims i) = none := by
      unfold read
      rw [hnc, if_neg hc]
    rw [h3] at h
    cases hh : read g (idx - strideProd dims i) <;> rw [hh] at h <;> cases h
  refine ⟨h1, h2, ?_⟩
  have e1 : read g (idx - strideProd dims i) = some (g.value (idx - strideProd dims i)) := by
    unfold read; rw [hnc, if_pos (by omega)]
  have e2 : read g (idx + strideProd dims i) = some (g.value (idx + strideProd dims i)) := by
    unfold read; rw [hnc, if_pos h2]
  rw [e1, e2] at h
  dsimp only at h
  injection h with h
  have ga := hg (idx - strideProd dims i) (by omega)
  have gb := hg (idx + strideProd dims i) h2
  generalize g.value (idx - strideProd dims i) = a at *
  generalize g.value (idx + strideProd dims i) = b at *
  rw [two_eq] at h
  rcases ga with rfl | ⟨x, _, rfl⟩ <;> rcases gb with rfl | ⟨y, _, rfl⟩
  · left
    rw [← h]
    have : Arith.add (Arith.div (Arith.neg (pinf : XR)) (fin 2)) (Arith.div pinf (fin 2)) = nan := by
      show XR.add (XR.div (XR.neg pinf) (fin 2)) (XR.div pinf (fin 2)) = nan
      simp only [XR.neg, XR.div, XR.add, neg2, if_false]
      try (rw [if_neg (by norm_num : ¬ (2:ℝ) = 0)])
    rw [this]; rfl
  · right
    refine ⟨-1, ?_, Or.inr (Or.inr ⟨y, rfl, rfl, rfl⟩)⟩
    rw [← h]
    have : Arith.add (Arith.div (Arith.neg (pinf : XR)) (fin 2)) (Arith.div (fin y) (fin 2)) = ninf := by
      show XR.add (XR.div (XR.neg pinf) (fin 2)) (XR.div (fin y) (fin 2)) = ninf
      simp only [XR.neg, XR.div, XR.add, neg2, if_false]
      try (rw [if_neg (by norm_num : ¬ (2:ℝ) = 0)])
    rw [this]
    show sgn ninf = _
    unfold sgn
    have h1 : Arith.lt (Arith.zero : XR) ninf = false := rfl
    have h2 : Arith.lt ninf (Arith.zero : XR) = true := rfl
    rw [h1, h2]
    show fin (((0 - 1 : ℤ) : ℝ) / ((1:Nat):ℝ)) = _
    norm_num
  · right
    refine ⟨1, ?_, Or.inr (Or.inl ⟨x, rfl, rfl, rfl⟩)⟩
    rw [← h]
    have : Arith.add (Arith.div (Arith.neg (fin x : XR)) (fin 2)) (Arith.div pinf (fin 2)) = pinf := by
      show XR.add (XR.div (XR.neg (fin x)) (fin 2)) (XR.div pinf (fin 2)) = pinf
      simp only [XR.neg, XR.div, XR.add, neg2, if_false]
      try (rw [if_neg (by norm_num : ¬ (2:ℝ) = 0)])
    rw [this]
    show sgn pinf = _
    unfold sgn
    have h1 : Arith.lt (Arith.zero : XR) pinf = true := rfl
    have h2 : Arith.lt pinf (Arith.zero : XR) = false := rfl
    rw [h1, h2]
    show fin (((1 - 0 : ℤ) : ℝ) / ((1:Nat):ℝ)) = _
    norm_num
  · right
    refine ⟨(y - x)/2, ?_, Or.inl ⟨x, y, rfl, rfl, rfl⟩⟩
    rw [← h]
    have : Arith.add (Arith.div (Arith.neg (fin x : XR)) (fin 2)) (Arith.div (fin y) (fin 2)) = fin ((y - x)/2) := by
      show XR.add (XR.div (XR.neg (fin x)) (fin 2)) (XR.div (fin y) (fin 2)) = _
      simp [XR.neg, XR.div, XR.add]; ring
    rw [this]; rfl

theorem abs_fin (x : ℝ) : Arith.abs (fin x) = fin |x| := rfl
theorem lt_fin (x y : ℝ) : Arith.lt (fin x) (fin y) = decide (x < y) := rfl

theorem maxGrad_fold : ∀ (l : List ℝ) (m0 : ℝ), ∃ m, (l.map fin).foldl (fun m y => if Arith.lt (Arith.abs m) (Arith.abs y) then y else m) (fin m0) = fin m ∧
    |m0| ≤ |m| ∧ (∀ y ∈ l, |y| ≤ |m|) ∧ (|m| = |m0| ∨ ∃ y ∈ l, |y| = |m|) := by
  intro l
  induction l with
  | nil => intro m0; exact ⟨m0, rfl, le_refl _, by simp, Or.inl rfl⟩
  | cons y l ih =>
    intro m0
    simp only [List.map_cons, List.foldl_cons, abs_fin, lt_fin]
    by_cases hlt : |m0| < |y|
    · obtain ⟨m, h1, h2, h3, h4⟩ := ih y
      refine ⟨m, by simpa [hlt, abs_fin, lt_fin] using h1, by linarith, ?_, ?_⟩
      · intro z hz
        rcases List.mem_cons.1 hz with rfl | hz
        · exact h2
        · exact h3 z hz
      · rcases h4 with h4 | ⟨z, hz, h4⟩
        · exact Or.inr ⟨y, by simp, h4.symm⟩
        · exact Or.inr ⟨z, by simp [hz], h4⟩
    · obtain ⟨m, h1, h2, h3, h4⟩ := ih m0
      refine ⟨m, by simpa [hlt, abs_fin, lt_fin] using h1, h2, ?_, ?_⟩
      · intro z hz
        rcases List.mem_cons.1 hz with rfl | hz
        · exact le_trans (not_lt.1 hlt) h2
        · exact h3 z hz
      · rcases h4 with h4 | ⟨z, hz, h4⟩
        · exact Or.inl h4
        · exact Or.inr ⟨z, by simp [hz], h4⟩

theorem maxGrad_spec {l : List ℝ} (hl : l ≠ []) : ∃ m, maxGrad (l.map fin) = fin m ∧ (∀ y ∈ l, |y| ≤ |m|) ∧ ∃ y ∈ l, |y| = |m| := by
  cases l with
  | nil => exact absurd rfl hl
  | cons x xs =>
    obtain ⟨m, h1, h2, h3, h4⟩ := maxGrad_fold xs |x|
    rw [abs_abs] at h2 h4
    refine ⟨m, h1, ?_, ?_⟩
    · intro y hy
      rcases List.mem_cons.1 hy with rfl | hy
      · exact h2
      · exact h3 y hy
    · rcases h4 with h4 | ⟨y, hy, h4⟩
      · exact ⟨x, by simp, h4.symm⟩
      · exact ⟨y, by simp [hy], h4⟩

theorem truncInt_fin {x : XR} {z : Int} (h : Arith.truncInt x = some z) : ∃ r, x = fin r ∧ z = (if 0 ≤ r then ⌊r⌋ else ⌈r⌉) := by
  cases x with
  | fin r =>
    refine ⟨r, rfl, ?_⟩
    change (let t : ℤ := if 0 ≤ r then ⌊r⌋ else ⌈r⌉
      if -2147483648 ≤ t ∧ t < 2147483648 then some t else none) = some z at h
    dsimp only at h
    by_cases hc : -2147483648 ≤ (if 0 ≤ r then ⌊r⌋ else ⌈r⌉) ∧ (if 0 ≤ r then ⌊r⌋ else ⌈r⌉) < 2147483648
    · rw [if_pos hc] at h; injection h with h; exact h.symm
    · rw [if_neg hc] at h; cases h
  | _ => cases h

theorem half_eq : (Arith.ofRat 1 2 : XR) = fin (1/2) := by show fin ((1:ℤ) / ((2:Nat):ℝ)) = fin (1/2); norm_num

theorem add_half {x : XR} {r : ℝ} (h : Arith.add x (Arith.ofRat 1 2) = fin r) : ∃ y, x = fin y ∧ r = y + 1/2 := by
  rw [half_eq] at h
  cases x with
  | fin y => exact ⟨y, rfl, by injection h with h; exact h.symm⟩
  | _ => cases h

/-- moving one coordinate -/
theorem move1 {p δ m : ℝ} {y : XR} {r : ℝ} (h : Arith.sub (fin p) (Arith.div (Arith.mul (fin δ) y) (fin m)) = fin r) (hy : y = nan ∨ ∃ x, y = fin x) :
    ∃ x, y = fin x ∧ m ≠ 0 ∧ r = p - δ * x / m := by
  rcases hy with rfl | ⟨x, rfl⟩
  · cases h
  · refine ⟨x, rfl, ?_⟩
    change XR.add (fin p) (XR.neg (if m = 0 then infSign (δ * x) else fin (δ * x / m))) = fin r at h
    by_cases hm : m = 0
    · rw [if_pos hm] at h
      unfold infSign at h
      split at h
      · cases h
      · split at h <;> cases h
    · rw [if_neg hm] at h
      injection h with h
      exact ⟨hm, by rw [← h]; ring⟩


theorem list_of {α : Type} {l : List XR} {n : Nat} (hl : l.length = n) (h : ∀ i, i < n → ∃ x, l[i]? = some (fin x)) :
    ∃ f : Nat → ℝ, l = ((List.range n).map f).map fin := by
  have h' : ∀ i, ∃ x, i < n → l[i]? = some (fin x) := by
    intro i
    by_cases hi : i < n
    · obtain ⟨x, hx⟩ := h i hi; exact ⟨x, fun _ => hx⟩
    · exact ⟨0, fun h => absurd h hi⟩
  choose f hf using h'
  refine ⟨f, List.ext_getElem? (fun i => ?_)⟩
  by_cases hi : i < n
  · rw [hf i hi]
    simp [hi]
  · rw [List.getElem?_eq_none (by omega), List.getElem?_eq_none (by simp; omega)]

theorem toU32_of {z : Int} (h0 : 0 ≤ z) (h1 : z < 4294967296) : toU32 z = z.toNat := by
  unfold toU32; rw [Int.emod_eq_of_lt h0 h1]

theorem next_spec (hf : Fits dims (2^31+1)) (hs : g.shape = Shape.mk' dims) (hg : ∀ i, i < dims.prod → GoodT (g.value i)) {δ : ℝ} {s s' : St XR}
    (hidx : s.idx < dims.prod) {p : List ℝ} (hp : p.length = dims.length) (hsp : s.point = p.map fin) (h : next g (fin δ) s = some s') :
    ∃ q : List ℝ, s'.point = q.map fin ∧ DescentStep dims g.value δ s.idx p q ∧ s'.idx < dims.prod ∧ CellAt dims q s'.idx ∧
      s'.path = s.path ++ [q.map fin] ∧ s'.vels = s.vels ++ [g.vel s.idx] := by
  have hnc : g.shape.ncells = dims.prod := by rw [hs]; exact mk'_ncells (hf.mono (by norm_num))
  have hnd : g.shape.ndims = dims.length := by rw [hs]; rfl
  have hnd0 : 0 < dims.length := by have := hf.two; omega
  unfold next at h
  cases hgr : grads g s.idx with
  | none => rw [hgr] at h; cases h
  | some gr =>
    rw [hgr] at h
    dsimp only at h
    cases hcs : toCoord (move (fin δ) s.point gr) with
    | none => rw [hcs] at h; cases h
    | some cs =>
      rw [hcs] at h
      dsimp only at h
      rw [hnc] at h
      by_cases hin : g.shape.coord2idx cs < dims.prod
      swap
      · rw [if_neg hin] at h; cases h
      rw [if_pos hin] at h
      injection h with h
      subst h
      -- the gradients
      obtain ⟨l1, l2⟩ := mapM_some hgr
      rw [List.length_range, hnd] at l1
      have gy : ∀ i, i < dims.length → ∃ y, gr[i]? = some y ∧ grad g s.idx i = some y := by
        intro i hi
        exact l2 i i (by rw [List.getElem?_range]; rw [hnd]; exact hi)
      have gsp : ∀ i, i < dims.length → ∀ y, gr[i]? = some y → strideProd dims i ≤ s.idx ∧ s.idx + strideProd dims i < dims.prod ∧
          (y = nan ∨ ∃ x, y = fin x ∧ IsSlope (g.value (s.idx - strideProd dims i)) (g.value (s.idx + strideProd dims i)) x) := fun i hi y hy => by
        obtain ⟨y', h1, h2⟩ := gy i hi
        rw [hy] at h1; injection h1 with h1; subst h1
        exact grad_spec hf hs hg hidx hi h2
      -- the coordinates
      unfold toCoord at hcs
      cases hz : (move (fin δ) s.point gr).mapM (fun x => Arith.truncInt (Arith.add x (Arith.ofRat 1 2))) with
      | none => rw [hz] at hcs; cases hcs
      | some zs =>
      rw [hz] at hcs
      simp only [Option.map_some, Option.some.injEq] at hcs
      subst hcs
      obtain ⟨z1, z2⟩ := mapM_some hz
      have hml : (move (fin δ) s.point gr).length = dims.length := by
        unfold move; rw [List.length_zipWith, hsp, List.length_map, hp, l1, min_self]
      rw [hml] at z1
      have hpi : ∀ i, i < dims.length → s.point[i]? = some (fin (p.getD i 0)) := by
        intro i hi
        rw [hsp, List.getElem?_map, List.getElem?_eq_getElem (by omega), List.getD_eq_getElem _ _ (by omega)]
        rfl
      have mv : ∀ i, i < dims.length → ∀ y, gr[i]? = some y →
          (move (fin δ) s.point gr)[i]? = some (Arith.sub (fin (p.getD i 0)) (Arith.div (Arith.mul (fin δ) y) (Arith.abs (maxGrad gr)))) := by
        intro i hi y hy
        unfold move
        rw [List.getElem?_zipWith, hpi i hi, hy]
      -- every new coordinate is finite
      have hfin : ∀ i, i < dims.length → ∃ (y : XR) (r : ℝ) (z : Int), gr[i]? = some y ∧ zs[i]? = some z ∧
          Arith.sub (fin (p.getD i 0)) (Arith.div (Arith.mul (fin δ) y) (Arith.abs (maxGrad gr))) = fin r ∧ z = (if 0 ≤ r + 1/2 then ⌊r + 1/2⌋ else ⌈r + 1/2⌉) := by
        intro i hi
        obtain ⟨y, hy, _⟩ := gy i hi
        obtain ⟨z, h1, h2⟩ := z2 i _ (mv i hi y hy)
        obtain ⟨r, h3, h4⟩ := truncInt_fin h2
        obtain ⟨r', h5, h6⟩ := add_half h3
        subst h6
        exact ⟨y, r', z, hy, h1, h5, h4⟩
      have hyfin : ∀ i, i < dims.length → ∃ x, gr[i]? = some (fin x) := by
        intro i hi
        obtain ⟨y, r, z, hy, _, h3, _⟩ := hfin i hi
        rcases (gsp i hi y hy).2.2 with rfl | ⟨x, rfl, _⟩
        · cases h3
        · exact ⟨x, hy⟩
      obtain ⟨ys, rfl⟩ := list_of (α := Unit) l1 hyfin
      have hne : (List.range dims.length).map ys ≠ [] := by
        intro hc
        have := congrArg List.length hc
        simp at this
        rw [this] at hnd0; simp at hnd0
      obtain ⟨m, hm1, hm2, y0, hy0, hm3⟩ := maxGrad_spec hne
      rw [hm1] at hfin
      rw [abs_fin] at hfin
      obtain ⟨i0, hi0, rfl⟩ := List.mem_map.1 hy0
      rw [List.mem_range] at hi0
      have gri : ∀ i, i < dims.length → (((List.range dims.length).map ys).map fin)[i]? = some (fin (ys i)) := by
        intro i hi; simp [hi]
      have hstep : ∀ i, i < dims.length → |m| ≠ 0 ∧ ∃ (r : ℝ) (z : Int), zs[i]? = some z ∧ r = p.getD i 0 - δ * ys i / |m| ∧
          (move (fin δ) s.point (((List.range dims.length).map ys).map fin))[i]? = some (fin r) ∧ z = (if 0 ≤ r + 1/2 then ⌊r + 1/2⌋ else ⌈r + 1/2⌉) := by
        intro i hi
        obtain ⟨y, r, z, h1, h2, h3, h4⟩ := hfin i hi
        rw [gri i hi] at h1
        injection h1 with h1
        subst h1
        obtain ⟨x, hx, hm0, hr⟩ := move1 h3 (Or.inr ⟨_, rfl⟩)
        injection hx with hx
        subst hx
        refine ⟨hm0, r, z, h2, hr, ?_, h4⟩
        rw [mv i hi _ (gri i hi), hm1, abs_fin, h3]
      have hm0 := (hstep i0 hi0).1
      have hmpos : 0 < |m| := lt_of_le_of_ne (abs_nonneg m) (Ne.symm hm0)
      obtain ⟨qf, hq⟩ := list_of (α := Unit) hml (fun i hi => by
        obtain ⟨_, r, z, _, _, h, _⟩ := hstep i hi
        exact ⟨r, h⟩)
      have hqi : ∀ i, i < dims.length → ((List.range dims.length).map qf).getD i 0 = qf i := by
        intro i hi; simp [List.getD, hi]
      have hqv : ∀ i, i < dims.length → qf i = p.getD i 0 - δ * ys i / |m| ∧ ∃ z, zs[i]? = some z ∧ z = (if 0 ≤ qf i + 1/2 then ⌊qf i + 1/2⌋ else ⌈qf i + 1/2⌉) := by
        intro i hi
        obtain ⟨_, r, z, h1, h2, h3, h4⟩ := hstep i hi
        have : r = qf i := by
          rw [hq] at h3
          simp [hi] at h3
          exact h3.symm
        subst this
        exact ⟨h2, z, h1, h4⟩
      refine ⟨(List.range dims.length).map qf, hq, ?_, hin, ?_, by rw [← hq], rfl⟩
      · refine ⟨by simp, fun i hi => (gsp i hi _ (gri i hi)).1, fun i hi => (gsp i hi _ (gri i hi)).2.1, ys, |m|, ?_, hmpos, ?_, ⟨i0, hi0, hm3⟩, ?_⟩
        · intro i hi
          rcases (gsp i hi _ (gri i hi)).2.2 with h | ⟨x, h, h2⟩
          · cases h
          · injection h with h; rw [h]; exact h2
        · intro i hi
          exact hm2 _ (List.mem_map.2 ⟨i, by simpa using hi, rfl⟩)
        · intro i hi
          rw [hqi i hi]; exact (hqv i hi).1
      · intro hbox i hi
        dsimp only
        have hc : ∀ k, k < dims.length → (zs.map toU32).getD k 0 = ⌊qf k + 1/2⌋.toNat ∧ (⌊qf k + 1/2⌋.toNat : ℝ) ≤ qf k + 1/2 ∧
            qf k + 1/2 < (⌊qf k + 1/2⌋.toNat : ℝ) + 1 ∧ ⌊qf k + 1/2⌋.toNat < dims.getD k 0 := by
          intro k hk
          obtain ⟨b1, b2⟩ := hbox k hk
          rw [hqi k hk] at b1 b2
          obtain ⟨_, z, h1, h2⟩ := hqv k hk
          rw [if_pos b1] at h2
          have hz0 : 0 ≤ ⌊qf k + 1/2⌋ := Int.floor_nonneg.2 b1
          have hcast : ((⌊qf k + 1/2⌋.toNat : ℕ) : ℝ) = ((⌊qf k + 1/2⌋ : ℤ) : ℝ) := by
            have : ((⌊qf k + 1/2⌋.toNat : ℕ) : ℤ) = ⌊qf k + 1/2⌋ := Int.toNat_of_nonneg hz0
            exact_mod_cast this
          have hle : ((⌊qf k + 1/2⌋ : ℤ) : ℝ) ≤ qf k + 1/2 := Int.floor_le _
          have hlt2 : ⌊qf k + 1/2⌋.toNat < dims.getD k 0 := by
            have : ((⌊qf k + 1/2⌋.toNat : ℕ) : ℝ) < (dims.getD k 0 : ℝ) := by rw [hcast]; linarith
            exact_mod_cast this
          have hdk : dims.getD k 0 ≤ dims.prod := by
            have : dims.getD k 0 ∈ dims := by rw [List.getD_eq_getElem _ _ hk]; exact List.getElem_mem _
            exact Nat.le_of_dvd (List.prod_pos hf.pos) (List.dvd_prod this)
          have hlt3 := hf.lt
          refine ⟨?_, by rw [hcast]; exact hle, by rw [hcast]; exact Int.lt_floor_add_one _, hlt2⟩
          rw [List.getD_eq_getElem?_getD, List.getElem?_map, h1]
          show toU32 z = _
          rw [h2, toU32_of hz0 (by
            have : ((⌊qf k + 1/2⌋.toNat : ℕ) : ℤ) = ⌊qf k + 1/2⌋ := Int.toNat_of_nonneg hz0
            omega)]
        have hcl : (zs.map toU32).length = dims.length := by rw [List.length_map, z1]
        have hrt := C01_coord_roundtrip dims (hf.mono (by norm_num)) (zs.map toU32) ⟨hcl, fun k hk => by
          rw [(hc k hk).1]; exact (hc k hk).2.2.2⟩
        rw [hs, hrt.2.2, hqi i hi, (hc i hi).1]
        exact ⟨(hc i hi).2.1, (hc i hi).2.2.1⟩

theorem toPoint_eq (c : Nat) : (toPoint ((Shape.mk' dims).idx2coord c) : List XR) = (centre dims c).map fin := by
  unfold toPoint centre
  rw [List.map_map]
  apply List.map_congr_left
  intro a _
  show fin (((a : ℤ) : ℝ) / ((1 : Nat) : ℝ)) = fin (a : ℝ)
  simp

theorem centre_len (hf : Fits dims (2^31+1)) {c : Nat} (hc : c < dims.prod) : (centre dims c).length = dims.length := by
  unfold centre
  rw [List.length_map, idx2coord_eq (hf.mono (by norm_num)) hc]; simp

structure Inv (dims : List Nat) (g : Grid XR) (δ : ℝ) (idx : Nat) (s : St XR) : Prop where
  ex : ∃ cs ps p, Descent dims g.value δ (cs ++ [s.idx]) (ps ++ [p]) ∧ s.point = p.map fin ∧ p.length = dims.length ∧ s.idx < dims.prod ∧
    s.path = (ps ++ [p]).map (fun q => q.map fin) ∧ s.vels = (idx :: cs).map g.vel ∧ (cs ++ [s.idx]).headD 0 = idx

theorem Inv.runs (hf : Fits dims (2^31+1)) (hs : g.shape = Shape.mk' dims) (hg : ∀ i, i < dims.prod → GoodT (g.value i)) {δ : ℝ} {idx : Nat} {s0 s : St XR}
    {n : Nat} (h0 : init g idx = some s0) (h : FMM.Steps (Step g (fin δ)) n s0 s) : Inv dims g δ idx s := by
  have hnc : g.shape.ncells = dims.prod := by rw [hs]; exact mk'_ncells (hf.mono (by norm_num))
  refine FMM.Steps.inv (I := Inv dims g δ idx) ?_ h ?_
  · rintro u t ⟨cs, ps, p, i1, i2, i3, i4, i5, i6, i7⟩ ⟨hd, hn⟩
    obtain ⟨q, n1, n2, n3, n4, n5, n6⟩ := next_spec hf hs hg i4 i3 i2 hn
    have hT : g.value u.idx ≠ fin 0 := by
      intro hc; apply hd; unfold Done; rw [hc]; show XR.eq (fin 0) (fin 0) = true; simp [XR.eq]
    refine ⟨cs ++ [u.idx], ps ++ [p], q, Descent.step q t.idx i1 hT n2 n3 n4, n1, n2.len, n3, ?_, ?_, ?_⟩
    · rw [n5, i5]; simp
    · rw [n6, i6]; simp
    · cases cs with
      | nil => simpa using i7
      | cons a cs => simpa using i7
  · unfold init at h0
    rw [hnc] at h0
    by_cases hi : idx < dims.prod
    · rw [if_pos hi] at h0
      injection h0 with h0
      subst h0
      rw [hs, toPoint_eq]
      exact ⟨[], [], centre dims idx, .start idx hi, rfl, centre_len hf hi, hi, rfl, rfl, rfl⟩
    · rw [if_neg hi] at h0; cases h0

/-- **C35**, in full: what `GradientDescent::apply` returns.  The path is a descent from the centre of the given cell to a cell with arrival time 0, followed
by the centre of that cell; the velocities are those of the start, then of the cell in which each step begins, then of the last cell. -/
theorem _root_.FMV.C35_descent (hf : Fits dims (2^31+1)) (hs : g.shape = Shape.mk' dims) (hg : ∀ i, i < dims.prod → GoodT (g.value i)) (δ : ℝ) (idx : Nat)
    (path : List (List XR)) (vels : List XR) (idx' : Nat) (h : Runs g idx (fin δ) path vels idx') :
    ∃ (cs : List Nat) (ps : List (List ℝ)), Descent dims g.value δ (cs ++ [idx']) ps ∧ (cs ++ [idx']).headD 0 = idx ∧ g.value idx' = fin 0 ∧ idx' < dims.prod ∧
      path = (ps ++ [centre dims idx']).map (fun q => q.map fin) ∧ vels = ((idx :: cs) ++ [idx']).map g.vel := by
  obtain ⟨s0, n, s, h0, h1, hd, rfl, rfl, rfl⟩ := h
  obtain ⟨cs, ps, p, i1, i2, i3, i4, i5, i6, i7⟩ := Inv.runs hf hs hg h0 h1
  refine ⟨cs, ps ++ [p], i1, i7, ?_, i4, ?_, ?_⟩
  · unfold Done at hd
    rcases hg s.idx i4 with h | ⟨r, _, h⟩
    · rw [h] at hd; cases hd
    · rw [h] at hd ⊢
      have : r = 0 := by
        change XR.eq (fin r) (fin 0) = true at hd
        simpa [XR.eq] using hd
      rw [this]
  · rw [i5, hs, toPoint_eq]; simp
  · rw [i6]; simp

theorem Descent.facts {T : Nat → XR} {δ : ℝ} {cs : List Nat} {ps : List (List ℝ)} (hf : Fits dims (2^31+1)) (h : Descent dims T δ cs ps) :
    cs.length = ps.length ∧ cs ≠ [] ∧ ps.head? = some (centre dims (cs.headD 0)) ∧ (∀ q ∈ ps, q.length = dims.length) ∧
    ∀ k p q, ps[k]? = some p → ps[k+1]? = some q → ∃ c, cs[k]? = some c ∧ DescentStep dims T δ c p q := by
  induction h with
  | start c hc =>
    refine ⟨rfl, by simp, rfl, ?_, ?_⟩
    · intro q hq; rw [List.mem_singleton.1 hq]; exact centre_len hf hc
    · intro k p q _ h; simp at h
  | @step cs ps c p q c' h1 h2 h3 h4 h5 ih =>
    obtain ⟨i1, i2, i3, i4, i5⟩ := ih
    refine ⟨by simp only [List.length_append, List.length_singleton] at i1 ⊢; omega, by simp, ?_, ?_, ?_⟩
    · rw [List.head?_append, i3]
      cases cs <;> simp
    · intro x hx
      rcases List.mem_append.1 hx with hx | hx
      · exact i4 x hx
      · rw [List.mem_singleton.1 hx]; exact h3.len
    · intro k x y hx hy
      simp only [List.length_append, List.length_singleton] at i1
      by_cases hk : k + 1 < (ps ++ [p]).length
      · rw [List.getElem?_append_left (by omega)] at hx
        rw [List.getElem?_append_left hk] at hy
        obtain ⟨c0, e1, e2⟩ := i5 k x y hx hy
        refine ⟨c0, ?_, e2⟩
        rw [List.getElem?_append_left (by simp at hk ⊢; omega)]; exact e1
      · have hk2 : k + 1 = (ps ++ [p]).length := by
          by_contra hne
          rw [List.getElem?_eq_none (by simp at hk hne ⊢; omega)] at hy
          cases hy
        simp only [List.length_append, List.length_singleton] at hk2
        have hk3 : k = ps.length := by omega
        subst hk3
        have e1 : (cs ++ [c] ++ [c'])[ps.length]? = some c := by
          rw [List.getElem?_append_left (by simp; omega), List.getElem?_append_right (by omega)]
          simp [show ps.length - cs.length = 0 by omega]
        rw [List.getElem?_append_left (by simp), List.getElem?_append_right (by omega)] at hx
        rw [List.getElem?_append_right (by simp)] at hy
        simp at hx hy
        subst hx hy
        exact ⟨c, e1, h3⟩

/-- **C35**: a returned path starts at the coordinates of the given cell and ends at the coordinates of a cell with arrival time 0; there are as many
velocities as points; and between consecutive points, except before the last one, no coordinate changes by more than the step size, and one changes by exactly that. -/
theorem _root_.FMV.C35_path (hf : Fits dims (2^31+1)) (hs : g.shape = Shape.mk' dims) (hg : ∀ i, i < dims.prod → GoodT (g.value i)) (δ : ℝ) (idx : Nat)
    (path : List (List XR)) (vels : List XR) (idx' : Nat) (h : Runs g idx (fin δ) path vels idx') :
    path.head? = some ((centre dims idx).map fin) ∧ path.getLast? = some ((centre dims idx').map fin) ∧ g.value idx' = fin 0 ∧ idx' < dims.prod ∧
    vels.length = path.length ∧
    ∀ k, k + 2 < path.length → ∃ p q : List ℝ, path[k]? = some (p.map fin) ∧ path[k+1]? = some (q.map fin) ∧ p.length = dims.length ∧ q.length = dims.length ∧
      (∀ i, i < dims.length → |q.getD i 0 - p.getD i 0| ≤ |δ|) ∧ ∃ i, i < dims.length ∧ |q.getD i 0 - p.getD i 0| = |δ| := by
  obtain ⟨cs, ps, h1, h2, h3, h4, rfl, rfl⟩ := C35_descent hf hs hg δ idx path vels idx' h
  obtain ⟨f1, f2, f3, f4, f5⟩ := Descent.facts hf h1
  rw [h2] at f3
  refine ⟨?_, ?_, h3, h4, ?_, ?_⟩
  · rw [List.head?_map, List.head?_append, f3]; rfl
  · simp
  · simp at f1 ⊢; omega
  · intro k hk
    simp only [List.length_map, List.length_append, List.length_singleton] at hk
    have hp : ps[k]? = some ps[k] := List.getElem?_eq_getElem (by omega)
    have hq : ps[k+1]? = some ps[k+1] := List.getElem?_eq_getElem (by omega)
    obtain ⟨c, _, hst⟩ := f5 k _ _ hp hq
    refine ⟨ps[k], ps[k+1], ?_, ?_, f4 _ (List.getElem_mem _), f4 _ (List.getElem_mem _), ?_⟩
    · rw [List.getElem?_map, List.getElem?_append_left (by omega), hp]; rfl
    · rw [List.getElem?_map, List.getElem?_append_left (by omega), hq]; rfl
    · obtain ⟨sl, m, _, m0, m1, ⟨i0, hi0, m2⟩, m3⟩ := hst.move
      have e : ∀ i, i < dims.length → |ps[k+1].getD i 0 - ps[k].getD i 0| = |δ| * (|sl i| / m) := by
        intro i hi
        rw [m3 i hi, show ps[k].getD i 0 - δ * sl i / m - ps[k].getD i 0 = -(δ * (sl i / m)) by ring, abs_neg, abs_mul, abs_div, abs_of_pos m0]
      refine ⟨fun i hi => ?_, i0, hi0, ?_⟩
      · rw [e i hi]
        have : |sl i| / m ≤ 1 := (div_le_one m0).2 (m1 i hi)
        nlinarith [abs_nonneg δ]
      · rw [e i0 hi0, m2, div_self m0.ne', mul_one]

/-- **C35**: in a cell that is not on the border in dimension `i`, the two cells whose times are compared are the neighbours in that dimension. -/
theorem _root_.FMV.C35_reads_neighbours (hf : Fits dims (2^31+1)) {c i : Nat} (hc : c < dims.prod) (hi : i < dims.length)
    (h1 : 0 < ((Shape.mk' dims).idx2coord c).getD i 0) (h2 : ((Shape.mk' dims).idx2coord c).getD i 0 + 1 < dims.getD i 0) :
    strideProd dims i ≤ c ∧ c + strideProd dims i < dims.prod ∧
    ∀ k, k < dims.length →
      ((Shape.mk' dims).idx2coord (c + strideProd dims i)).getD k 0 = ((Shape.mk' dims).idx2coord c).getD k 0 + (if k = i then 1 else 0) ∧
      ((Shape.mk' dims).idx2coord (c - strideProd dims i)).getD k 0 + (if k = i then 1 else 0) = ((Shape.mk' dims).idx2coord c).getD k 0 := by
  have hfb : Fits dims (2^32) := hf.mono (by norm_num)
  have hd : ∀ (x k : Nat), x < dims.prod → k < dims.length → ((Shape.mk' dims).idx2coord x).getD k 0 = digit dims x k := by
    intro x k hx hk
    rw [idx2coord_eq hfb hx, List.getD_eq_getElem _ _ (by simpa using hk)]; simp
  rw [hd c i hc hi] at h1 h2
  have hpos := strideOf_pos hf.pos i
  have hdvd := strideOf_dvd dims (k := i+1) (m := dims.length) (by omega)
  rw [strideOf_length, strideOf_succ hi] at hdvd
  have hdc := decomp hi c
  unfold strideProd
  change strideOf dims i ≤ c ∧ c + strideOf dims i < dims.prod ∧ _
  have hle : strideOf dims i ≤ c := by
    unfold digit at h1
    by_contra hlt
    rw [Nat.div_eq_of_lt (by omega)] at h1
    simp at h1
  have hlt : c + strideOf dims i < dims.prod := by
    obtain ⟨q, hq⟩ := hdvd
    have hh : c / (strideOf dims i * dims.getD i 0) < q := by
      rw [Nat.div_lt_iff_lt_mul (by have := getD_pos hf.pos hi; positivity), mul_comm, ← hq]; exact hc
    have hlow : c % strideOf dims i < strideOf dims i := Nat.mod_lt _ hpos
    have e1 : c = c % strideOf dims i + strideOf dims i * (digit dims c i + dims.getD i 0 * (c / (strideOf dims i * dims.getD i 0))) := by
      unfold digit
      rw [← Nat.div_div_eq_div_mul]
      rw [Nat.mod_add_div, Nat.mod_add_div]
    rw [hq]
    have e2 : strideOf dims i * dims.getD i 0 * q ≥ strideOf dims i * dims.getD i 0 * (c / (strideOf dims i * dims.getD i 0) + 1) := Nat.mul_le_mul_left _ hh
    have e3 : strideOf dims i * (digit dims c i + 2) ≤ strideOf dims i * (dims.getD i 0 ) + 0 := by
      have := Nat.mul_le_mul_left (strideOf dims i) (show digit dims c i + 2 ≤ dims.getD i 0 by omega)
      omega
    nlinarith
  have hadd := fun k (hk : k < dims.length) => digit_add_stride hf.pos hi (i := c) h2 hk
  refine ⟨hle, hlt, ?_⟩
  intro k hk
  have hcm : c - strideOf dims i < dims.prod := by omega
  have h0 : digit dims (c - strideOf dims i) i + 1 = digit dims c i := by
    unfold digit
    have : (c - strideOf dims i) / strideOf dims i = c / strideOf dims i - 1 := by
      have := Nat.sub_mul_div c (strideOf dims i) 1
      simpa using this
    rw [this]
    unfold digit at h1
    set a := c / strideOf dims i
    have hD := getD_pos hf.pos hi
    have ha : 0 < a := by
      by_contra h; have : a = 0 := Nat.eq_zero_of_not_pos h
      rw [this] at h1; simp at h1
    have hb : a % dims.getD i 0 - 1 < dims.getD i 0 := by
      have := Nat.mod_lt a hD; omega
    have : a - 1 = (a % dims.getD i 0 - 1) + dims.getD i 0 * (a / dims.getD i 0) := by
      have := Nat.mod_add_div a (dims.getD i 0); omega
    rw [this, Nat.add_mul_mod_self_left, Nat.mod_eq_of_lt hb]; omega
  have hsub := digit_add_stride hf.pos hi (i := c - strideOf dims i) (by omega) hk
  rw [Nat.sub_add_cancel hle] at hsub
  change ((Shape.mk' dims).idx2coord (c + strideOf dims i)).getD k 0 = _ ∧ ((Shape.mk' dims).idx2coord (c - strideOf dims i)).getD k 0 + _ = _
  rw [hd _ k hlt hk, hd _ k hc hk, hd _ k hcm hk, hadd k hk]
  by_cases hki : k = i
  · subst hki; simp; exact h0
  · rw [if_neg hki] at hsub; simp [hki, hsub]

/-- **C35**, where no path is returned: in a cell that was reached at a time other than 0 and whose neighbours in each dimension have equal times (half-way
between two sources, or in the middle of an unreached region) the first step divides 0 by 0 and converts NaN to `int`: undefined behaviour. -/
theorem _root_.FMV.C35_refuted_flat (hf : Fits dims (2^31+1)) (hs : g.shape = Shape.mk' dims) (hg : ∀ i, i < dims.prod → GoodT (g.value i)) (δ : ℝ) (idx : Nat)
    (hidx : idx < dims.prod) (ht : g.value idx ≠ fin 0) (hflat : ∀ i, i < dims.length → g.value (idx - strideProd dims i) = g.value (idx + strideProd dims i)) :
    ∃ s0, init g idx = some s0 ∧ ¬ Done g s0 ∧ next g (fin δ) s0 = none := by
  have hnc : g.shape.ncells = dims.prod := by rw [hs]; exact mk'_ncells (hf.mono (by norm_num))
  refine ⟨_, by unfold init; rw [hnc, if_pos hidx], ?_, ?_⟩
  · unfold Done
    dsimp only
    intro hd
    apply ht
    rcases hg idx hidx with h | ⟨r, _, h⟩
    · rw [h] at hd; cases hd
    · rw [h] at hd ⊢
      have : r = 0 := by
        change XR.eq (fin r) (fin 0) = true at hd
        simpa [XR.eq] using hd
      rw [this]
  · cases hn : next g (fin δ) ⟨idx, toPoint (g.shape.idx2coord idx), [toPoint (g.shape.idx2coord idx)], [g.vel idx]⟩ with
    | none => rfl
    | some s' =>
      exfalso
      obtain ⟨q, _, hst, _⟩ := next_spec (s := ⟨idx, toPoint (g.shape.idx2coord idx), [toPoint (g.shape.idx2coord idx)], [g.vel idx]⟩) hf hs hg hidx
        (centre_len hf hidx) (by dsimp only; rw [hs, toPoint_eq]) hn
      obtain ⟨sl, m, m4, m0, _, ⟨i0, hi0, m2⟩, _⟩ := hst.move
      have := m4 i0 hi0
      dsimp only at this
      rw [hflat i0 hi0] at this
      have hz : sl i0 = 0 := by
        rcases this with ⟨x, y, h1, h2, h3⟩ | ⟨x, h1, h2, _⟩ | ⟨y, h1, h2, _⟩
        · rw [h1] at h2; injection h2 with h2; rw [h3, h2]; ring
        · rw [h1] at h2; cases h2
        · rw [h1] at h2; cases h2
      rw [hz, abs_zero] at m2
      linarith

/-- **C35**, at the border: in the last cell of a row, the cell whose time is taken for the neighbour after it is the first cell of the next row. -/
theorem _root_.FMV.C35_refuted_border (hf : Fits dims (2^31+1)) {c : Nat} (hc : c + 1 < dims.prod)
    (hb : ((Shape.mk' dims).idx2coord c).getD 0 0 + 1 = dims.getD 0 0) : ((Shape.mk' dims).idx2coord (c + strideProd dims 0)).getD 0 0 = 0 := by
  have h0 : 0 < dims.length := by have := hf.two; omega
  have hfb : Fits dims (2^32) := hf.mono (by norm_num)
  have hd : ∀ x, x < dims.prod → ((Shape.mk' dims).idx2coord x).getD 0 0 = x % dims.getD 0 0 := by
    intro x hx
    rw [idx2coord_eq hfb hx, List.getD_eq_getElem _ _ (by simpa using h0)]
    simp [digit, strideOf_zero]
  rw [hd c (by omega)] at hb
  rw [show strideProd dims 0 = 1 by simp [strideProd], hd _ hc, Nat.add_mod]
  have hD := getD_pos hf.pos h0
  by_cases h1 : dims.getD 0 0 = 1
  · rw [h1, Nat.mod_one]
  · rw [Nat.mod_eq_of_lt (show 1 < dims.getD 0 0 by omega), hb, Nat.mod_self]

/-! ## A concrete descent -/

/-- A 3 x 3 grid whose cell 1 has arrival time 0 and the others 1. -/
noncomputable def hill : Grid XR :=
  { Grid.create [3,3] (fin 1) (0,0) with cells := fun i => { (Cell.default : Cell XR) with index := i, value := if i = 1 then fin 0 else fin 1 } }

theorem hill_val (i : Nat) : hill.value i = if i = 1 then fin 0 else fin 1 := rfl
theorem hill_fits : Fits [3,3] (2^31+1) := ⟨by decide, by decide, by decide⟩
theorem hill_good (i : Nat) (hi : i < ([3,3] : List Nat).prod) : GoodT (hill.value i) := by
  rw [hill_val]; split
  · exact Or.inr ⟨0, le_refl _, rfl⟩
  · exact Or.inr ⟨1, by norm_num, rfl⟩

theorem trunc_nat {r : ℝ} {n : Nat} (h1 : (n:ℝ) ≤ r) (h2 : r < n + 1) (h3 : n < 1000) : Arith.truncInt (fin r) = some (n : Int) := by
  have h0 : (0:ℝ) ≤ r := le_trans (Nat.cast_nonneg n) h1
  have hfl : ⌊r⌋ = (n : Int) := Int.floor_eq_iff.2 ⟨by exact_mod_cast h1, by exact_mod_cast h2⟩
  show (let t : ℤ := if 0 ≤ r then ⌊r⌋ else ⌈r⌉
      if -2147483648 ≤ t ∧ t < 2147483648 then some t else none) = _
  dsimp only
  rw [if_pos h0, hfl, if_pos (by omega)]

theorem hill_run : Runs hill 4 (fin 1) [[fin 1, fin 1], [fin 1, fin 0], [fin 1, fin 0]] [fin 1, fin 1, fin 1] 1 := by
  have hpt : ∀ n : Nat, (Arith.ofNat n : XR) = fin (n : ℝ) := by
    intro n
    show fin (((n : ℤ) : ℝ) / ((1 : Nat) : ℝ)) = fin (n : ℝ)
    simp
  have hc4 : hill.shape.idx2coord 4 = [1,1] := by decide
  have hc1 : hill.shape.idx2coord 1 = [1,0] := by decide
  have t4 : (toPoint (hill.shape.idx2coord 4) : List XR) = [fin 1, fin 1] := by rw [hc4]; simp [toPoint, hpt]
  have t1 : (toPoint (hill.shape.idx2coord 1) : List XR) = [fin 1, fin 0] := by rw [hc1]; simp [toPoint, hpt]
  have hv : ∀ i, hill.vel i = fin 1 := fun _ => rfl
  have g0 : grad hill 4 0 = some (fin 0) := by
    have a : read hill (u32sub 4 (stride hill.shape 0)) = some (fin 1) := by
      rw [show u32sub 4 (stride hill.shape 0) = 3 by decide]; unfold read; rw [if_pos (by decide), hill_val, if_neg (by decide)]
    have b : read hill (u32 (4 + stride hill.shape 0)) = some (fin 1) := by
      rw [show u32 (4 + stride hill.shape 0) = 5 by decide]; unfold read; rw [if_pos (by decide), hill_val, if_neg (by decide)]
    unfold grad
    rw [a, b, two_eq]
    have : Arith.add (Arith.div (Arith.neg (fin 1 : XR)) (fin 2)) (Arith.div (fin 1) (fin 2)) = fin 0 := by
      show XR.add (XR.div (XR.neg (fin 1)) (fin 2)) (XR.div (fin 1) (fin 2)) = _
      simp [XR.neg, XR.div, XR.add]; ring
    dsimp only
    rw [this]; rfl
  have g1 : grad hill 4 1 = some (fin (1/2)) := by
    have a : read hill (u32sub 4 (stride hill.shape 1)) = some (fin 0) := by
      rw [show u32sub 4 (stride hill.shape 1) = 1 by decide]; unfold read; rw [if_pos (by decide), hill_val, if_pos (by decide)]
    have b : read hill (u32 (4 + stride hill.shape 1)) = some (fin 1) := by
      rw [show u32 (4 + stride hill.shape 1) = 7 by decide]; unfold read; rw [if_pos (by decide), hill_val, if_neg (by decide)]
    unfold grad
    rw [a, b, two_eq]
    have : Arith.add (Arith.div (Arith.neg (fin 0 : XR)) (fin 2)) (Arith.div (fin 1) (fin 2)) = fin (1/2) := by
      show XR.add (XR.div (XR.neg (fin 0)) (fin 2)) (XR.div (fin 1) (fin 2)) = _
      simp [XR.neg, XR.div, XR.add]
    dsimp only
    rw [this]; rfl
  have hgr : grads hill 4 = some [fin 0, fin (1/2)] := by
    unfold grads
    rw [show List.range hill.shape.ndims = [0,1] by decide]
    simp [g0, g1]
  have hmx : maxGrad [fin 0, fin (1/2)] = fin (1/2) := by
    unfold maxGrad
    simp only [List.foldl_cons, List.foldl_nil, abs_fin, lt_fin]
    norm_num
  have hmv : move (fin 1) [fin 1, fin 1] [fin 0, fin (1/2)] = [fin 1, fin 0] := by
    unfold move
    rw [hmx, abs_fin]
    have e1 : Arith.sub (fin 1) (Arith.div (Arith.mul (fin 1) (fin 0)) (fin |1/2|)) = fin 1 := by
      show XR.add (fin 1) (XR.neg (XR.div (XR.mul (fin 1) (fin 0)) (fin |1/2|))) = _
      simp [XR.mul, XR.div, XR.neg, XR.add]
    have e2 : Arith.sub (fin 1) (Arith.div (Arith.mul (fin 1) (fin (1/2))) (fin |1/2|)) = fin 0 := by
      show XR.add (fin 1) (XR.neg (XR.div (XR.mul (fin 1) (fin (1/2))) (fin |1/2|))) = _
      simp [XR.mul, XR.div, XR.neg, XR.add, abs_of_pos]
    show [Arith.sub (fin 1) (Arith.div (Arith.mul (fin 1) (fin 0)) (fin |1/2|)), Arith.sub (fin 1) (Arith.div (Arith.mul (fin 1) (fin (1/2))) (fin |1/2|))] = _
    rw [e1, e2]
  have hco : toCoord [fin 1, fin 0] = some [1, 0] := by
    unfold toCoord
    rw [half_eq]
    have e1 : Arith.truncInt (Arith.add (fin 1) (fin (1/2))) = some 1 := trunc_nat (n := 1) (by norm_num) (by norm_num) (by norm_num)
    have e2 : Arith.truncInt (Arith.add (fin 0) (fin (1/2))) = some 0 := trunc_nat (n := 0) (by norm_num) (by norm_num) (by norm_num)
    simp only [List.mapM_cons, List.mapM_nil, e1, e2]
    rfl
  refine ⟨⟨4, [fin 1, fin 1], [[fin 1, fin 1]], [fin 1]⟩, 1, ⟨1, [fin 1, fin 0], [[fin 1, fin 1], [fin 1, fin 0]], [fin 1, fin 1]⟩, ?_, ?_, ?_, ?_, rfl, rfl⟩
  · unfold init
    rw [if_pos (by decide), t4, hv]
  · refine .tail (.refl _) ⟨?_, ?_⟩
    · unfold Done
      show ¬ XR.eq (hill.value 4) (fin 0) = true
      rw [hill_val, if_neg (by decide)]; simp [XR.eq]
    · unfold next
      dsimp only
      rw [hgr]
      dsimp only
      rw [hmv, hco]
      dsimp only
      rw [show hill.shape.coord2idx [1,0] = 1 by decide, if_pos (by decide), hv]
      rfl
  · unfold Done
    show XR.eq (hill.value 1) (fin 0) = true
    rw [hill_val, if_pos rfl]; simp [XR.eq]
  · dsimp only; rw [t1]; rfl

/-- non-vacuity of `C35_refuted_flat`: the same grid, seen from a cell between two equal ones -/
example (δ : ℝ) : ∃ s0, init { hill with cells := fun i => { hill.cells i with value := fin 1 } } 4 = some s0 ∧
    ¬ Done { hill with cells := fun i => { hill.cells i with value := fin 1 } } s0 ∧
    next { hill with cells := fun i => { hill.cells i with value := fin 1 } } (fin δ) s0 = none :=
  C35_refuted_flat hill_fits rfl (fun i _ => Or.inr ⟨1, by norm_num, rfl⟩) δ 4 (by decide)
    (by show fin 1 ≠ fin 0; intro h; injection h with h; norm_num at h) (fun i _ => rfl)

/-! ## C51 -/

/-- **C51**, refuted: `computePath` overwrites the initial point.  If the goal is the only cell with arrival time 0 (which is the case after FM2, see
`C51_only_goal_is_zero_partial`), then after `computePath()` the object's initial point is its goal, and `setup()` refuses the problem from then on, on any grid. -/
theorem _root_.FMV.C51_refuted_computePath (hf : Fits dims (2^31+1)) (hs : g.shape = Shape.mk' dims) (hg : ∀ i, i < dims.prod → GoodT (g.value i)) (δ : ℝ)
    (o o' : FM2.Obj XR) (start : Nat) (hp : o.pts = [start]) (hzero : ∀ i, i < dims.prod → g.value i = fin 0 → i = o.goal) (path : List (List XR)) (vels : List XR)
    (h : o.ComputesPath g (fin δ) path vels o') : o'.pts = [o'.goal] ∧ o'.goal = o.goal ∧ ∀ g', ¬ ∃ r, o'.setup g' = .ok r := by
  obtain ⟨idx', hr, rfl⟩ := h
  obtain ⟨_, _, h3, h4, _⟩ := C35_path hf hs hg δ _ _ _ _ hr
  have he := hzero idx' h4 h3
  have hpts : o.pts.set 0 idx' = [o.goal] := by rw [hp, he]; rfl
  refine ⟨hpts, rfl, ?_⟩
  rintro g' ⟨⟨g1, o1⟩, hset⟩
  have := (FM2.setup_ok hset).1
  unfold FM2.Obj.sanityChecks at this
  rw [Life.sanity_iff] at this
  have hap := this.apart
  dsimp only at hap
  rw [hpts] at hap
  simp at hap

/-- after FM2 or FM2* the goal is the only cell with arrival time 0 -/
theorem _root_.FMV.C51_only_goal_is_zero_partial {h : ℝ} {v : Nat → ℝ} (M : FM2Map dims g h v) {D : ℝ} (hD : D = -1 ∨ 0 < D) (star : Option Heur) (d : Bool) (gl : Nat)
    (j : Junk XR) (start goal : Nat) (hgo : goal < dims.prod) (G : Grid XR) (o' : FM2.Obj XR)
    (hc : (configuredFM2 star (fin D) d gl j g [start] goal).2.Computes FMM.IsTop (configuredFM2 star (fin D) d gl j g [start] goal).1 G o') :
    (∀ i, i < dims.prod → GoodT (G.value i)) ∧ G.shape = Shape.mk' dims ∧ ∀ i, i < dims.prod → G.value i = fin 0 → i = goal := by
  obtain ⟨g1, o1, gv, s, hset, hvm, cfg, n, st, q1, q2, q3, q4, q5, q6, rfl⟩ := C34_second_wave_partial _ _ _ _ _ _ _ _ _ _ _ hc
  obtain ⟨⟨r, hr, _⟩, _⟩ := C32_velocities M hD star d gl j [start] goal g1 gv o1 s hset hvm
  obtain ⟨U, hU, _⟩ := C17_unique_solution (obstacleWave dims g h v) ⟨M.dims2, fun x hx => lt_of_lt_of_le (by norm_num) (M.two x hx), M.cells, M.hpos,
    fun i hi ho => (FM2.input M (SameMap.refl g)).vpos hi (by simpa [obstacleWave] using ho)⟩
  obtain ⟨t, mx, a1, a2, a3, a4, a5, a6, a7, a8, a9, k1, k2, k3, k4⟩ := FM2.velmap_spec M hU hD hset hvm
  rw [k3] at q4
  have hmap := C20_FMM cfg gv [] [goal] n st (q4.mono (fun _ _ h => (FM2.stepMin_iff.1 h).any))
  have X : XInput dims gv h r [goal] :=
    ⟨(FM2.input M (SameMap.refl g)).fits, M.two, a8.trans M.shape, by intro i hi; rw [List.mem_singleton.1 hi]; exact hgo, M.hpos, a9.trans M.leaf,
     fun i hi _ => (hr i hi).1⟩
  have hfr : Fresh gv := ⟨fun i => (a6 i).1, fun i => (a6 i).2.1, fun i => (a6 i).2.2⟩
  obtain ⟨U2, hU2, _⟩ := C17_unique_solution X.problem X.wellPosed
  have hlow := C18_FMM X hfr U2 hU2 cfg n st (q4.mono (fun _ _ h => (FM2.stepMin_iff.1 h).lib))
  refine ⟨fun i hi => (hlow i hi).1, hmap.shape.trans X.shape, ?_⟩
  intro i hi hz
  by_contra hne
  have h2 := (hlow i hi).2
  change st.g.value i = fin 0 at hz
  rw [hz] at h2
  have hpos : 0 < U2 i := by
    cases ho : gv.occ i with
    | false => exact sol_pos X hU2 hi ho (by simpa using hne)
    | true => rw [(hU2 i hi).2.1 (fun h => hne (List.mem_singleton.1 h)) ho]; exact WithTop.coe_lt_top 0
  exact absurd (lt_of_lt_of_le hpos h2) (lt_irrefl _)

/-- non-vacuity of `C51_refuted_computePath` -/
example (o : FM2.Obj XR) (hp : o.pts = [4]) (hgo : o.goal = 1) : ∃ path vels o', o.ComputesPath hill (fin 1) path vels o' ∧ o'.pts = [o'.goal] := by
  have h : o.ComputesPath hill (fin 1) _ _ { o with pts := o.pts.set 0 1 } := ⟨1, by rw [hp]; exact hill_run, rfl⟩
  exact ⟨_, _, _, h, (C51_refuted_computePath hill_fits rfl hill_good 1 o _ 4 hp (fun i _ hv => by
    rw [hill_val] at hv
    rw [hgo]
    by_contra hne
    rw [if_neg hne] at hv
    injection hv with hv
    norm_num at hv) _ _ h).1⟩

end GD
end FMV
