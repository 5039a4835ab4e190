import Verif.Model.Grid
import Mathlib.Algebra.BigOperators.Group.List.Basic
import Mathlib.Data.Nat.ModEq
import Mathlib.Data.List.Nodup
import Mathlib.Data.List.Lattice
import Mathlib.Data.List.Range
import Mathlib.Tactic.Ring
import Mathlib.Tactic.Linarith
set_option linter.unusedSectionVars false
set_option linter.unusedVariables false
set_option linter.unusedSimpArgs false
namespace FMV
namespace Shape

theorem list_prod_pos {l : List Nat} (h : ∀ a ∈ l, 0 < a) : 0 < l.prod := by
  induction l with
  | nil => simp
  | cons x xs ih =>
    rw [List.prod_cons]
    exact Nat.mul_pos (h x (by simp)) (ih (fun a ha => h a (by simp [ha])))

/-- product of the first `k` sizes -/
def strideOf (dims : List Nat) (k : Nat) : Nat := (dims.take k).prod

/-- digit `k` of `i` in the mixed radix system given by `dims` -/
def digit (dims : List Nat) (i k : Nat) : Nat := i / strideOf dims k % dims.getD k 0

theorem strideOf_zero (dims : List Nat) : strideOf dims 0 = 1 := by simp [strideOf]

theorem strideOf_succ {dims : List Nat} {k : Nat} (h : k < dims.length) :
    strideOf dims (k+1) = strideOf dims k * dims.getD k 0 := by
  unfold strideOf
  rw [List.take_succ_eq_append_getElem h, List.prod_append, List.prod_singleton]
  simp [List.getD_eq_getElem?_getD, h]

theorem strideOf_length (dims : List Nat) : strideOf dims dims.length = dims.prod := by
  simp [strideOf]

theorem strideOf_pos {dims : List Nat} (h : ∀ x ∈ dims, 0 < x) (k : Nat) : 0 < strideOf dims k := by
  unfold strideOf
  apply list_prod_pos
  intro a ha
  exact h a (List.mem_of_mem_take ha)

theorem strideOf_dvd (dims : List Nat) {k m : Nat} (h : k ≤ m) : strideOf dims k ∣ strideOf dims m := by
  unfold strideOf
  obtain ⟨l, rfl⟩ := Nat.exists_eq_add_of_le h
  rw [List.take_add, List.prod_append]
  exact Dvd.intro _ rfl

theorem strideOf_le {dims : List Nat} (hp : ∀ x ∈ dims, 0 < x) {k m : Nat} (h : k ≤ m) :
    strideOf dims k ≤ strideOf dims m :=
  Nat.le_of_dvd (strideOf_pos hp m) (strideOf_dvd dims h)

theorem strideOf_le_prod {dims : List Nat} (hp : ∀ x ∈ dims, 0 < x) (k : Nat) :
    strideOf dims k ≤ dims.prod := by
  rcases Nat.le_total k dims.length with h | h
  · rw [← strideOf_length]; exact strideOf_le hp h
  · unfold strideOf; rw [List.take_of_length_le h]

theorem getD_pos {dims : List Nat} (hp : ∀ x ∈ dims, 0 < x) {k : Nat} (h : k < dims.length) :
    0 < dims.getD k 0 := by
  rw [List.getD_eq_getElem?_getD, List.getElem?_eq_getElem h]
  exact hp _ (List.getElem_mem h)

theorem partials_getD (dims : List Nat) : ∀ (acc : Nat) (_ : 0 < acc) (_ : ∀ x ∈ dims, 0 < x)
    (_ : acc * dims.prod < 4294967296) (k : Nat), k < dims.length →
    (partials acc dims).getD k 0 = acc * strideOf dims (k+1) := by
  induction dims with
  | nil => intro acc _ _ _ k hk; simp at hk
  | cons x xs ih =>
    intro acc ha hp hb k hk
    have hx : 0 < x := hp x (by simp)
    have hxs : ∀ y ∈ xs, 0 < y := fun y hy => hp y (by simp [hy])
    have hpos : 0 < xs.prod := list_prod_pos (fun a h => hxs a h)
    have hlt : acc * x < 4294967296 := by
      have : acc * x * 1 ≤ acc * x * xs.prod := Nat.mul_le_mul_left _ hpos
      rw [List.prod_cons, ← mul_assoc] at hb
      omega
    have hu : u32 (acc * x) = acc * x := Nat.mod_eq_of_lt hlt
    unfold partials
    rw [hu]
    cases k with
    | zero => simp [strideOf]
    | succ k =>
      rw [List.getD_cons_succ]
      rw [ih (acc * x) (Nat.mul_pos ha hx) hxs (by rw [List.prod_cons, ← mul_assoc] at hb; exact hb) k
        (by simpa using hk)]
      simp [strideOf, mul_assoc]

theorem partials_length (dims : List Nat) (acc : Nat) : (partials acc dims).length = dims.length := by
  induction dims generalizing acc with
  | nil => rfl
  | cons x xs ih => simp [partials, ih]

/-- The shapes the library is meant for: at least two dimensions, positive sizes and
a cell count below the bound `B`. -/
structure Fits (dims : List Nat) (B : Nat) : Prop where
  two : 2 ≤ dims.length
  pos : ∀ x ∈ dims, 0 < x
  lt : dims.prod < B

theorem Fits.mono {dims : List Nat} {B C : Nat} (h : Fits dims B) (hBC : B ≤ C) : Fits dims C :=
  ⟨h.two, h.pos, lt_of_lt_of_le h.lt hBC⟩

theorem mk'_d {dims : List Nat} (h : Fits dims 4294967296) {k : Nat} (hk : k < dims.length) :
    (mk' dims).d.getD k 0 = strideOf dims (k+1) := by
  unfold mk'
  simp only
  rw [partials_getD dims 1 (by norm_num) h.pos (by simpa using h.lt) k hk, one_mul]

theorem getLastD_eq_getD (l : List Nat) (x y : Nat) (h : 0 < l.length) :
    l.getLastD x = l.getD (l.length - 1) y := by
  cases l with
  | nil => simp at h
  | cons a l =>
    rw [List.getLastD_cons, List.getD_eq_getElem?_getD, List.getLastD_eq_getLast?, List.getLast?_eq_getElem?]
    cases l with
    | nil => simp
    | cons b l => simp

theorem mk'_ncells {dims : List Nat} (h : Fits dims 4294967296) : (mk' dims).ncells = dims.prod := by
  have h2 := h.two
  have hl : (partials 1 dims).length = dims.length := partials_length _ _
  have := mk'_d h (k := dims.length - 1) (by omega)
  unfold mk' at this ⊢
  simp only at this ⊢
  rw [getLastD_eq_getD _ _ 0 (by omega), hl, this, Nat.sub_add_cancel (by omega), strideOf_length]

theorem mk'_dims (dims : List Nat) : (mk' dims).dims = dims := rfl
theorem mk'_ndims (dims : List Nat) : (mk' dims).ndims = dims.length := rfl

theorem u32_of_lt {n : Nat} (h : n < 4294967296) : u32 n = n := Nat.mod_eq_of_lt h

theorem u32sub_of_le {a b : Nat} (h : b ≤ a) (ha : a < 4294967296) : u32sub a b = a - b := by
  unfold u32sub; omega

theorem u32sub_of_gt {a b : Nat} (h : a < b) (hb : b < 4294967296) :
    u32sub a b = 4294967296 - (b - a) := by
  unfold u32sub; omega

/-! ### digits -/

theorem digit_lt {dims : List Nat} (hp : ∀ x ∈ dims, 0 < x) {k : Nat} (hk : k < dims.length) (i : Nat) :
    digit dims i k < dims.getD k 0 := Nat.mod_lt _ (getD_pos hp hk)

/-- `i = low + stride_k * (digit_k + size_k * high)` -/
theorem decomp {dims : List Nat} {k : Nat} (hk : k < dims.length) (i : Nat) :
    i = i % strideOf dims k + strideOf dims k * (digit dims i k + dims.getD k 0 * (i / strideOf dims (k+1))) := by
  rw [strideOf_succ hk, ← Nat.div_div_eq_div_mul]
  unfold digit
  rw [Nat.mod_add_div, Nat.mod_add_div]

/-- digits below `k` only depend on the value modulo `stride_k` -/
theorem digit_mod {dims : List Nat} {m k : Nat} (hm : m < k) (hk : k ≤ dims.length) (i : Nat) :
    digit dims (i % strideOf dims k) m = digit dims i m := by
  unfold digit
  have hml : m < dims.length := by omega
  obtain ⟨q, hq⟩ := strideOf_dvd dims (k := m+1) (m := k) (by omega)
  rw [hq, strideOf_succ hml, Nat.mul_assoc, Nat.mod_mul_right_div_self, Nat.mod_mul_right_mod]

theorem digit_of_lt {dims : List Nat} {k : Nat} (hk : k < dims.length) {i : Nat}
    (hi : i < strideOf dims (k+1)) : i / strideOf dims k = digit dims i k := by
  unfold digit
  rw [Nat.mod_eq_of_lt]
  rw [strideOf_succ hk] at hi
  exact Nat.div_lt_of_lt_mul hi

theorem idx2coordLoop_eq {dims : List Nat} (h : Fits dims 4294967296) :
    ∀ (k aux : Nat), k < dims.length → aux < strideOf dims (k+1) →
      idx2coordLoop (mk' dims) k aux = (List.range (k+1)).map (digit dims aux) := by
  intro k
  induction k with
  | zero =>
    intro aux hk haux
    have := digit_of_lt hk haux
    rw [strideOf_zero, Nat.div_one] at this
    simp [idx2coordLoop, ← this]
  | succ k ih =>
    intro aux hk haux
    have hkd := mk'_d h (k := k) (by omega)
    simp only [idx2coordLoop, hkd]
    have hs : 0 < strideOf dims (k+1) := strideOf_pos h.pos _
    have hb : strideOf dims (k+1+1) ≤ dims.prod := strideOf_le_prod h.pos _
    have hlt := h.lt
    have hle : aux / strideOf dims (k+1) * strideOf dims (k+1) ≤ aux := Nat.div_mul_le_self _ _
    rw [u32_of_lt (by omega), u32sub_of_le hle (by omega)]
    have hmod : aux - aux / strideOf dims (k+1) * strideOf dims (k+1) = aux % strideOf dims (k+1) := by
      have := Nat.mod_add_div' aux (strideOf dims (k+1)); omega
    rw [hmod, ih _ (by omega) (Nat.mod_lt _ hs), digit_of_lt hk haux]
    rw [List.range_succ (n := k+1), List.map_append, List.map_singleton]
    congr 1
    apply List.map_congr_left
    intro m hm
    exact digit_mod (List.mem_range.mp hm) (by omega) aux

/-- In a fitting shape the computed coordinates are the mixed-radix digits. -/
theorem idx2coord_eq {dims : List Nat} (h : Fits dims 4294967296) {i : Nat} (hi : i < dims.prod) :
    idx2coord (mk' dims) i = (List.range dims.length).map (digit dims i) := by
  have h2 := h.two
  unfold idx2coord
  rw [mk'_ndims, idx2coordLoop_eq h _ _ (by omega)
    (by rw [Nat.sub_add_cancel (by omega), strideOf_length]; exact hi), Nat.sub_add_cancel (by omega)]

/-- weighted sum of coordinates from dimension `k` on -/
def wsum (dims : List Nat) : Nat → List Nat → Nat
  | _, [] => 0
  | k, c :: cs => c * strideOf dims k + wsum dims (k+1) cs

theorem coord2idxLoop_eq {dims : List Nat} (h : Fits dims 4294967296) :
    ∀ (cs : List Nat) (k acc : Nat), 1 ≤ k → k + cs.length = dims.length →
      (∀ m, m < cs.length → cs.getD m 0 < dims.getD (k+m) 0) → acc < strideOf dims k →
      coord2idxLoop (mk' dims) k cs acc = acc + wsum dims k cs ∧ acc + wsum dims k cs < dims.prod := by
  intro cs
  induction cs with
  | nil =>
    intro k acc h1 hl hr ha
    simp only [coord2idxLoop, wsum, Nat.add_zero, true_and]
    exact lt_of_lt_of_le ha (strideOf_le_prod h.pos _)
  | cons c cs ih =>
    intro k acc h1 hl hr ha
    simp only [List.length_cons] at hl hr
    have hk : k < dims.length := by omega
    have hd := mk'_d h (k := k-1) (by omega)
    rw [Nat.sub_add_cancel h1] at hd
    have hc : c < dims.getD k 0 := by simpa using hr 0 (by omega)
    have hstep : acc + c * strideOf dims k < strideOf dims (k+1) := by
      rw [strideOf_succ hk]
      have : (c + 1) * strideOf dims k ≤ dims.getD k 0 * strideOf dims k := Nat.mul_le_mul_right _ hc
      rw [Nat.add_mul] at this
      rw [Nat.mul_comm (strideOf dims k)]
      omega
    have hle := strideOf_le_prod h.pos (k+1)
    have hlt := h.lt
    simp only [coord2idxLoop, hd]
    rw [u32_of_lt (n := c * _) (by omega), u32_of_lt (by omega)]
    have := ih (k+1) (acc + c * strideOf dims k) (by omega) (by omega)
      (fun m hm => by
        have := hr (m+1) (by omega)
        rw [List.getD_cons_succ] at this
        rwa [show k + 1 + m = k + (m+1) by omega]) hstep
    simp only [wsum, ← Nat.add_assoc]
    exact this

theorem coord2idx_eq {dims : List Nat} (h : Fits dims 4294967296) {cs : List Nat}
    (hl : cs.length = dims.length) (hr : ∀ m, m < dims.length → cs.getD m 0 < dims.getD m 0) :
    coord2idx (mk' dims) cs = wsum dims 0 cs ∧ wsum dims 0 cs < dims.prod := by
  have h2 := h.two
  cases cs with
  | nil => simp at hl; omega
  | cons c cs =>
    have hc : c < dims.getD 0 0 := by simpa using hr 0 (by omega)
    have := coord2idxLoop_eq h cs 1 c (le_refl _) (by simp at hl; omega)
      (fun m hm => by
        have := hr (m+1) (by simp at hl; omega)
        rw [List.getD_cons_succ] at this
        rwa [Nat.add_comm 1 m])
      (by rw [strideOf_succ (by omega), strideOf_zero, Nat.one_mul]; exact hc)
    simp only [coord2idx, wsum, strideOf_zero, Nat.mul_one]
    exact this

theorem wsum_append (dims : List Nat) (k : Nat) (xs ys : List Nat) :
    wsum dims k (xs ++ ys) = wsum dims k xs + wsum dims (k + xs.length) ys := by
  induction xs generalizing k with
  | nil => simp [wsum]
  | cons x xs ih =>
    simp only [List.cons_append, wsum, ih, List.length_cons]
    rw [show k + 1 + xs.length = k + (xs.length + 1) by omega, Nat.add_assoc]

theorem wsum_digits {dims : List Nat} (n : Nat) (hn : n ≤ dims.length) (i : Nat) :
    wsum dims 0 ((List.range n).map (digit dims i)) = i % strideOf dims n := by
  induction n with
  | zero => simp [wsum, strideOf_zero, Nat.mod_one]
  | succ n ih =>
    rw [List.range_succ, List.map_append, wsum_append, ih (by omega)]
    simp only [List.map_cons, List.map_nil, wsum, List.length_map, List.length_range, Nat.zero_add,
      Nat.add_zero]
    rw [strideOf_succ (by omega)]
    unfold digit
    rw [Nat.mod_mul, Nat.mul_comm]

theorem wsum_div {dims : List Nat} :
    ∀ (cs : List Nat) (k : Nat), strideOf dims k ∣ wsum dims k cs := by
  intro cs
  induction cs with
  | nil => intro k; simp [wsum]
  | cons c cs ih =>
    intro k
    simp only [wsum]
    exact Nat.dvd_add (Dvd.intro_left _ rfl) (dvd_trans (strideOf_dvd dims (by omega)) (ih (k+1)))

theorem digit_wsum_lt {dims : List Nat} (hp : ∀ x ∈ dims, 0 < x) {cs : List Nat}
    (hr : ∀ m, m < cs.length → cs.getD m 0 < dims.getD m 0) (hl : cs.length ≤ dims.length) :
    wsum dims 0 cs < strideOf dims cs.length := by
  induction cs using List.reverseRecOn with
  | nil => simp [wsum, strideOf_zero]
  | append_singleton cs c ih =>
    simp only [List.length_append, List.length_singleton] at hr hl ⊢
    have := ih (fun m hm => by
      have := hr m (by omega)
      rwa [List.getD_eq_getElem?_getD, List.getElem?_append_left hm, ← List.getD_eq_getElem?_getD] at this) (by omega)
    have hc := hr cs.length (by omega)
    rw [List.getD_eq_getElem?_getD, List.getElem?_append_right (le_refl _)] at hc
    simp at hc
    rw [wsum_append, strideOf_succ (by omega)]
    simp only [wsum, Nat.zero_add, Nat.add_zero]
    have h3 : (c + 1) * strideOf dims cs.length ≤ dims.getD cs.length 0 * strideOf dims cs.length :=
      Nat.mul_le_mul_right _ (by rw [List.getD_eq_getElem?_getD]; exact hc)
    rw [Nat.add_mul] at h3
    rw [Nat.mul_comm (strideOf dims _)]
    omega

theorem digit_wsum {dims : List Nat} (hp : ∀ x ∈ dims, 0 < x) {cs : List Nat}
    (hl : cs.length = dims.length) (hr : ∀ m, m < dims.length → cs.getD m 0 < dims.getD m 0)
    {k : Nat} (hk : k < dims.length) : digit dims (wsum dims 0 cs) k = cs.getD k 0 := by
  have hsplit : cs = cs.take k ++ (cs.getD k 0 :: cs.drop (k+1)) := by
    have hk' : k < cs.length := by omega
    rw [List.getD_eq_getElem?_getD, List.getElem?_eq_getElem hk', Option.getD_some,
      ← List.drop_eq_getElem_cons, List.take_append_drop]
  have hs := strideOf_pos hp k
  have hlow : wsum dims 0 (cs.take k) < strideOf dims k := by
    have := digit_wsum_lt hp (cs := cs.take k)
      (fun m hm => by
        simp only [List.length_take] at hm
        have := hr m (by omega)
        rwa [List.getD_eq_getElem?_getD, List.getElem?_take_of_lt (by omega), ← List.getD_eq_getElem?_getD])
      (by simp; omega)
    rwa [List.length_take, Nat.min_eq_left (by omega)] at this
  obtain ⟨q, hq⟩ := wsum_div (dims := dims) (cs.drop (k+1)) (k+1)
  have heq : wsum dims 0 cs = wsum dims 0 (cs.take k) + strideOf dims k * (cs.getD k 0 + dims.getD k 0 * q) := by
    conv_lhs => rw [hsplit]
    rw [wsum_append]
    simp only [wsum, Nat.zero_add, List.length_take]
    rw [Nat.min_eq_left (show k ≤ cs.length by omega), hq, strideOf_succ hk]; ring
  unfold digit
  rw [heq, Nat.add_mul_div_left _ _ hs, Nat.div_eq_of_lt hlow, Nat.zero_add, Nat.add_mul_mod_self_left,
    Nat.mod_eq_of_lt (hr k hk)]

/-- Two in-range indices with the same digits are equal. -/
theorem digit_ext {dims : List Nat} {i j : Nat} (hi : i < dims.prod) (hj : j < dims.prod)
    (h : ∀ k, k < dims.length → digit dims i k = digit dims j k) : i = j := by
  have hi' := wsum_digits (dims := dims) dims.length (le_refl _) i
  have hj' := wsum_digits (dims := dims) dims.length (le_refl _) j
  rw [strideOf_length, Nat.mod_eq_of_lt hi] at hi'
  rw [strideOf_length, Nat.mod_eq_of_lt hj] at hj'
  rw [← hi', ← hj']
  congr 1
  apply List.map_congr_left
  intro m hm
  exact h m (List.mem_range.mp hm)

/-! ### neighbours -/

theorem mk'_stride {dims : List Nat} (h : Fits dims 4294967296) {k : Nat} (hk : k < dims.length) :
    (if k = 0 then 1 else (mk' dims).d.getD (k - 1) 0) = strideOf dims k := by
  split
  · next h0 => rw [h0, strideOf_zero]
  · next h0 => rw [mk'_d h (by omega), Nat.sub_add_cancel (by omega)]

theorem nbrsDim_eq {dims : List Nat} (h : Fits dims 2147483649) {i k : Nat} (hi : i < dims.prod)
    (hk : k < dims.length) :
    (mk' dims).nbrsDim i k =
      (if 0 < digit dims i k then [i - strideOf dims k] else []) ++
      (if digit dims i k + 1 < dims.getD k 0 then [i + strideOf dims k] else []) := by
  have h32 : Fits dims 4294967296 := h.mono (by norm_num)
  have hlt := h.lt
  have hD := strideOf_pos h.pos k
  have hn := getD_pos h.pos hk
  have hDn : strideOf dims (k+1) = strideOf dims k * dims.getD k 0 := strideOf_succ hk
  have hDle : strideOf dims (k+1) ≤ dims.prod := strideOf_le_prod h.pos _
  have hDle' : strideOf dims k ≤ dims.prod := strideOf_le_prod h.pos _
  unfold nbrsDim
  simp only [mk'_stride h32 hk, mk'_d h32 hk]
  have hdec := Nat.div_add_mod (i / strideOf dims k) (dims.getD k 0)
  have hmodlt := Nat.mod_lt (i / strideOf dims k) hn
  have hdig : digit dims i k = i / strideOf dims k % dims.getD k 0 := rfl
  congr 1
  · -- lower neighbour
    by_cases hle : strideOf dims k ≤ i
    · rw [u32sub_of_le hle (by omega)]
      have hq : 1 ≤ i / strideOf dims k := (Nat.one_le_div_iff hD).2 hle
      have hsub : (i - strideOf dims k) / strideOf dims k = i / strideOf dims k - 1 := by
        have := Nat.sub_mul_div i (strideOf dims k) 1
        simpa using this
      have key : (i - strideOf dims k) / strideOf dims (k+1) = i / strideOf dims (k+1) ↔ 0 < digit dims i k := by
        rw [hDn, ← Nat.div_div_eq_div_mul, ← Nat.div_div_eq_div_mul, hsub, hdig]
        generalize i / strideOf dims k = q at *
        generalize dims.getD k 0 = n at *
        constructor
        · intro he
          by_contra h0
          have h0' : q % n = 0 := by omega
          have : (q - 1) / n < q / n := by
            apply (Nat.div_lt_iff_lt_mul hn).2
            rw [Nat.mul_comm]; omega
          omega
        · intro h0
          apply Nat.div_eq_of_lt_le
          · rw [Nat.mul_comm]; omega
          · rw [Nat.mul_comm, Nat.mul_add]; omega
      simp only [key]
    · rw [u32sub_of_gt (by omega) (by omega)]
      have hi0 : i / strideOf dims k = 0 := Nat.div_eq_of_lt (by omega)
      have hi1 : i / strideOf dims (k+1) = 0 := Nat.div_eq_of_lt (by
        have : strideOf dims k * 1 ≤ strideOf dims k * dims.getD k 0 := Nat.mul_le_mul_left _ hn
        omega)
      have hne : (4294967296 - (strideOf dims k - i)) / strideOf dims (k+1) ≠ 0 := by
        have : 0 < (4294967296 - (strideOf dims k - i)) / strideOf dims (k+1) := by
          apply Nat.div_pos _ (strideOf_pos h.pos _)
          omega
        omega
      rw [hi1, if_neg hne, hdig, hi0]
      simp
  · -- upper neighbour
    rw [u32_of_lt (by omega)]
    have hadd : (i + strideOf dims k) / strideOf dims k = i / strideOf dims k + 1 := Nat.add_div_right _ hD
    have key : (i + strideOf dims k) / strideOf dims (k+1) = i / strideOf dims (k+1) ↔
        digit dims i k + 1 < dims.getD k 0 := by
      rw [hDn, ← Nat.div_div_eq_div_mul, ← Nat.div_div_eq_div_mul, hadd, hdig]
      generalize i / strideOf dims k = q at *
      generalize dims.getD k 0 = n at *
      constructor
      · intro he
        by_contra h0
        have h0' : q % n + 1 = n := by omega
        have : q / n + 1 ≤ (q + 1) / n := by
          apply (Nat.le_div_iff_mul_le hn).2
          rw [Nat.add_mul, Nat.mul_comm]; omega
        omega
      · intro h0
        apply Nat.div_eq_of_lt_le
        · rw [Nat.mul_comm]; omega
        · rw [Nat.mul_comm, Nat.mul_add]; omega
    simp only [key]

theorem digit_add_stride {dims : List Nat} (hp : ∀ x ∈ dims, 0 < x) {k : Nat} (hk : k < dims.length) {i : Nat}
    (hd : digit dims i k + 1 < dims.getD k 0) {m : Nat} (hm : m < dims.length) :
    digit dims (i + strideOf dims k) m = if m = k then digit dims i k + 1 else digit dims i m := by
  have hD := strideOf_pos hp k
  split
  · next h => 
    subst h
    unfold digit at *
    rw [Nat.add_div_right _ hD]
    exact Nat.add_mod_of_add_mod_lt (by
      rw [Nat.mod_eq_of_lt (a := 1) (by omega)]; exact hd) |>.trans (by rw [Nat.mod_eq_of_lt (a := 1) (by omega)])
  · next h =>
    rcases Nat.lt_or_gt_of_ne h with hlt | hgt
    · rw [← digit_mod hlt (by omega) (i + _), ← digit_mod hlt (by omega) i, Nat.add_mod_right]
    · have hq : (i + strideOf dims k) / strideOf dims (k+1) = i / strideOf dims (k+1) := by
        rw [strideOf_succ hk, ← Nat.div_div_eq_div_mul, ← Nat.div_div_eq_div_mul, Nat.add_div_right _ hD]
        have hn := getD_pos hp hk
        have hdec := Nat.div_add_mod (i / strideOf dims k) (dims.getD k 0)
        unfold digit at hd
        apply Nat.div_eq_of_lt_le
        · rw [Nat.mul_comm]; omega
        · rw [Nat.mul_comm, Nat.mul_add]; omega
      obtain ⟨q, hq'⟩ := strideOf_dvd dims (k := k+1) (m := m) (by omega)
      unfold digit
      rw [hq', ← Nat.div_div_eq_div_mul, ← Nat.div_div_eq_div_mul, hq]

theorem add_stride_lt {dims : List Nat} {k : Nat} (hk : k < dims.length) {i : Nat}
    (hp : ∀ x ∈ dims, 0 < x) (hi : i < dims.prod) (hd : digit dims i k + 1 < dims.getD k 0) :
    i + strideOf dims k < dims.prod := by
  have hD := strideOf_pos hp (k+1)
  obtain ⟨q, hq⟩ := strideOf_dvd dims (k := k+1) (m := dims.length) (by omega)
  rw [strideOf_length] at hq
  rw [hq] at hi ⊢
  have hquo : (i + strideOf dims k) / strideOf dims (k+1) = i / strideOf dims (k+1) := by
    have hDk := strideOf_pos hp k
    rw [strideOf_succ hk, ← Nat.div_div_eq_div_mul, ← Nat.div_div_eq_div_mul, Nat.add_div_right _ hDk]
    have hn := getD_pos hp hk
    have hdec := Nat.div_add_mod (i / strideOf dims k) (dims.getD k 0)
    unfold digit at hd
    apply Nat.div_eq_of_lt_le
    · rw [Nat.mul_comm]; omega
    · rw [Nat.mul_comm, Nat.mul_add]; omega
  have hlt : i / strideOf dims (k+1) < q := Nat.div_lt_of_lt_mul hi
  rw [← hquo] at hlt
  rw [Nat.mul_comm]
  exact (Nat.div_lt_iff_lt_mul hD).1 hlt

theorem stride_le_of_digit {dims : List Nat} {k : Nat} {i : Nat}
    (hd : 0 < digit dims i k) : strideOf dims k ≤ i := by
  by_contra hc
  unfold digit at hd
  rw [Nat.div_eq_of_lt (by omega)] at hd
  simp at hd

theorem digit_sub_stride_self {dims : List Nat} (hp : ∀ x ∈ dims, 0 < x) {k : Nat} (hk : k < dims.length) {i : Nat}
    (hd : 0 < digit dims i k) : digit dims (i - strideOf dims k) k = digit dims i k - 1 := by
  have hD := strideOf_pos hp k
  have hle := stride_le_of_digit hd
  have hn := getD_pos hp hk
  unfold digit at *
  have hsub : (i - strideOf dims k) / strideOf dims k = i / strideOf dims k - 1 := by
    have := Nat.sub_mul_div i (strideOf dims k) 1
    simpa using this
  rw [hsub]
  have hdec := Nat.div_add_mod (i / strideOf dims k) (dims.getD k 0)
  have hml := Nat.mod_lt (i / strideOf dims k) hn
  generalize i / strideOf dims k = q at *
  generalize dims.getD k 0 = n at *
  have : q - 1 = (q % n - 1) + n * (q / n) := by omega
  rw [this, Nat.add_mul_mod_self_left, Nat.mod_eq_of_lt (by omega)]

/-- moving down is the inverse of moving up -/
theorem mem_nbrsDim_iff {dims : List Nat} (h : Fits dims 2147483649) {i j k : Nat} (hi : i < dims.prod)
    (hk : k < dims.length) :
    j ∈ (mk' dims).nbrsDim i k ↔
      (0 < digit dims i k ∧ j + strideOf dims k = i) ∨
      (digit dims i k + 1 < dims.getD k 0 ∧ j = i + strideOf dims k) := by
  rw [nbrsDim_eq h hi hk, List.mem_append]
  constructor
  · rintro (h1 | h1)
    · split at h1
      · next hd => 
        have := stride_le_of_digit hd
        left; simp at h1; exact ⟨hd, by omega⟩
      · simp at h1
    · split at h1
      · next hd => right; simp at h1; exact ⟨hd, h1⟩
      · simp at h1
  · rintro (⟨hd, he⟩ | ⟨hd, he⟩)
    · left; rw [if_pos hd]; simp; omega
    · right; rw [if_pos hd]; simp [he]

theorem nbrsDim_lt {dims : List Nat} (h : Fits dims 2147483649) {i j k : Nat} (hi : i < dims.prod)
    (hk : k < dims.length) (hj : j ∈ (mk' dims).nbrsDim i k) : j < dims.prod := by
  rw [mem_nbrsDim_iff h hi hk] at hj
  rcases hj with ⟨_, he⟩ | ⟨hd, he⟩
  · omega
  · rw [he]; exact add_stride_lt hk h.pos hi hd

theorem nbrsDim_symm {dims : List Nat} (h : Fits dims 2147483649) {i j k : Nat} (hi : i < dims.prod)
    (hk : k < dims.length) (hj : j ∈ (mk' dims).nbrsDim i k) : i ∈ (mk' dims).nbrsDim j k := by
  have hjlt := nbrsDim_lt h hi hk hj
  rw [mem_nbrsDim_iff h hi hk] at hj
  rw [mem_nbrsDim_iff h hjlt hk]
  rcases hj with ⟨hd, he⟩ | ⟨hd, he⟩
  · right
    have h1 := digit_sub_stride_self h.pos hk hd
    have h2 : i - strideOf dims k = j := by omega
    rw [h2] at h1
    have h3 := digit_lt h.pos hk i
    exact ⟨by omega, by omega⟩
  · left
    have h1 := digit_add_stride h.pos hk hd hk
    rw [if_pos rfl, ← he] at h1
    exact ⟨by omega, by omega⟩

theorem nbrsDim_digits {dims : List Nat} (h : Fits dims 2147483649) {i j k : Nat} (hi : i < dims.prod)
    (hk : k < dims.length) (hj : j ∈ (mk' dims).nbrsDim i k) :
    (digit dims i k + 1 = digit dims j k ∨ digit dims j k + 1 = digit dims i k) ∧
    ∀ m, m < dims.length → m ≠ k → digit dims i m = digit dims j m := by
  have hjlt := nbrsDim_lt h hi hk hj
  have hsymm := nbrsDim_symm h hi hk hj
  rw [mem_nbrsDim_iff h hi hk] at hj
  rw [mem_nbrsDim_iff h hjlt hk] at hsymm
  have hD := strideOf_pos h.pos k
  rcases hj with ⟨hd, he⟩ | ⟨hd, he⟩
  · have hup : digit dims j k + 1 < dims.getD k 0 := by
      rcases hsymm with ⟨_, h1⟩ | ⟨h1, _⟩
      · omega
      · exact h1
    constructor
    · right
      have := digit_add_stride h.pos hk hup hk
      rw [if_pos rfl, he] at this; omega
    · intro m hm hne
      have := digit_add_stride h.pos hk hup hm
      rw [if_neg hne, he] at this; exact this
  · constructor
    · left
      have := digit_add_stride h.pos hk hd hk
      rw [if_pos rfl, ← he] at this; omega
    · intro m hm hne
      have := digit_add_stride h.pos hk hd hm
      rw [if_neg hne, ← he] at this; exact this.symm

theorem mem_nbrsDim_of_digits {dims : List Nat} (h : Fits dims 2147483649) {i j k : Nat} (hi : i < dims.prod)
    (hj : j < dims.prod) (hk : k < dims.length)
    (h1 : digit dims i k + 1 = digit dims j k)
    (h2 : ∀ m, m < dims.length → m ≠ k → digit dims i m = digit dims j m) :
    j ∈ (mk' dims).nbrsDim i k := by
  rw [mem_nbrsDim_iff h hi hk]
  right
  have hd : digit dims i k + 1 < dims.getD k 0 := by rw [h1]; exact digit_lt h.pos hk j
  refine ⟨hd, ?_⟩
  apply digit_ext hj (add_stride_lt hk h.pos hi hd)
  intro m hm
  rw [digit_add_stride h.pos hk hd hm]
  split
  · next he => subst he; exact h1.symm
  · next he => exact (h2 m hm he).symm

theorem nbrsDim_nodup {dims : List Nat} (h : Fits dims 2147483649) {i k : Nat} (hi : i < dims.prod)
    (hk : k < dims.length) : ((mk' dims).nbrsDim i k).Nodup := by
  rw [nbrsDim_eq h hi hk]
  have hD := strideOf_pos h.pos k
  split <;> split <;> simp
  omega

theorem nbrsDim_length_pos {dims : List Nat} (h : Fits dims 2147483649) {i k : Nat} (hi : i < dims.prod)
    (hk : k < dims.length) (h2 : 2 ≤ dims.getD k 0) : (mk' dims).nbrsDim i k ≠ [] := by
  rw [nbrsDim_eq h hi hk]
  by_cases hd : 0 < digit dims i k
  · simp [hd]
  · rw [if_neg hd, if_pos (by omega)]; simp

theorem mem_nbrs {s : Shape} {i j : Nat} : j ∈ s.nbrs i ↔ ∃ k, k < s.ndims ∧ j ∈ s.nbrsDim i k := by
  simp [nbrs]

theorem nbrs_nodup {dims : List Nat} (h : Fits dims 2147483649) {i : Nat} (hi : i < dims.prod) :
    ((mk' dims).nbrs i).Nodup := by
  unfold nbrs
  rw [List.nodup_flatMap]
  constructor
  · intro k hk; exact nbrsDim_nodup h hi (by simpa [mk'_ndims] using hk)
  · rw [mk'_ndims]
    have : (List.range dims.length).Pairwise (fun a b => a < b ∧ b < dims.length) := by
      have h1 := List.pairwise_lt_range (n := dims.length)
      refine List.Pairwise.imp_of_mem ?_ h1
      intro a b _ hb hab
      exact ⟨hab, List.mem_range.mp hb⟩
    refine this.imp ?_
    rintro a b ⟨hab, hb⟩
    simp only [Function.onFun]
    intro j hja hjb
    have h1 := nbrsDim_digits h hi (by omega) hja
    have h2 := nbrsDim_digits h hi hb hjb
    have := h2.2 a (by omega) (by omega)
    omega

theorem nbrsDim_length_le (s : Shape) (i k : Nat) : (s.nbrsDim i k).length ≤ 2 := by
  unfold nbrsDim
  simp only [List.length_append]
  generalize u32sub i _ = a
  generalize u32 _ = b
  generalize s.d.getD k 0 = c
  split <;> split <;> simp

theorem nbrs_length_le (s : Shape) (i : Nat) : (s.nbrs i).length ≤ 2 * s.ndims := by
  unfold nbrs
  rw [List.length_flatMap]
  generalize s.ndims = n
  induction n with
  | zero => simp
  | succ n ih =>
    rw [List.range_succ, List.map_append, List.sum_append]
    have := nbrsDim_length_le s i n
    simp
    omega

end Shape
end FMV
