import Verif.Lemmas.GDNext
import Verif.Spec.Border
/-!
Gradient descent arrives if the slopes point roughly towards the start.
-/
set_option linter.unusedSectionVars false
set_option linter.unusedVariables false
namespace FMV
open Arith Spec Shape
namespace GD
open XR
variable {dims : List Nat} {g : Grid XR}

/-- the slopes point towards `s` up to an error `η`, and everywhere else one of them is at least `m0` -/
structure Funnel (dims : List Nat) (T : Nat → XR) (s : Nat) (η m0 : ℝ) : Prop where
  zero : T s = fin 0
  pos : ∀ c, c < dims.prod → c ≠ s → ∃ r, T c = fin r ∧ r ≠ 0
  slope : ∀ c, Inner dims 1 c → c ≠ s → ∃ sl : Nat → ℝ,
    (∀ i, i < dims.length → IsSlope (T (c - strideProd dims i)) (T (c + strideProd dims i)) (sl i)) ∧
    (∀ i, i < dims.length → (coordN dims s i ≤ coordN dims c i → -η ≤ sl i) ∧ (coordN dims c i ≤ coordN dims s i → sl i ≤ η)) ∧
    ∃ i, i < dims.length ∧ m0 ≤ |sl i|

/-- one coordinate, relative to the start: a step in the right direction (up to `e`) -/
theorem coord_step {y mv δ e : ℝ} (hδ : δ ≤ 1) (he : 0 ≤ e) (h1 : 1/2 ≤ y) (h2 : -e ≤ mv) (h3 : mv ≤ δ) : |y - mv| ≤ |y| + e ∧ -1/2 ≤ y - mv ∧ y - mv ≤ y + e := by
  rw [abs_of_pos (by linarith : 0 < y)]
  refine ⟨abs_le.2 ⟨by linarith, by linarith⟩, by linarith, by linarith⟩

theorem coord_full {y δ : ℝ} (h0 : 0 < δ) (hδ : δ ≤ 1) (h1 : 1/2 ≤ y) : |y - δ| ≤ |y| - min δ (1 - δ) := by
  rw [abs_of_pos (by linarith : 0 < y)]
  have a := min_le_left δ (1 - δ)
  have b := min_le_right δ (1 - δ)
  exact abs_le.2 ⟨by linarith, by linarith⟩

structure FInv (dims : List Nat) (s idx : Nat) (e ε : ℝ) (k : Nat) (u : St XR) (p : Nat → ℝ) : Prop where
  point : u.point = ((List.range dims.length).map p).map fin
  inner : Inner dims 1 u.idx
  cell : ∀ i, i < dims.length → (coordN dims u.idx i : ℝ) ≤ p i + 1/2 ∧ p i + 1/2 < coordN dims u.idx i + 1
  sum : (∑ i ∈ Finset.range dims.length, |p i - coordN dims s i|) + k * ε ≤ axisDist dims idx s
  lo : ∀ i, i < dims.length → min (coordN dims idx i : ℝ) (coordN dims s i - 1/2) - k * e ≤ p i
  hi : ∀ i, i < dims.length → p i ≤ max (coordN dims idx i : ℝ) (coordN dims s i + 1/2) + k * e

theorem coords_inj (hf : Fits dims (2^31+1)) {a b : Nat} (ha : a < dims.prod) (hb : b < dims.prod) (h : ∀ i, i < dims.length → coordN dims a i = coordN dims b i) : a = b := by
  have hfb : Fits dims (2^32) := hf.mono (by norm_num)
  apply digit_ext ha hb
  intro k hk
  have := h k hk
  unfold coordN at this
  rw [idx2coord_eq hfb ha, idx2coord_eq hfb hb, List.getD_eq_getElem _ _ (by simpa using hk), List.getD_eq_getElem _ _ (by simpa using hk)] at this
  simpa using this

theorem funnel_step (hf : Fits dims (2^31+1)) (hs : g.shape = Shape.mk' dims) {s idx : Nat} {η m0 δ e ε : ℝ} (Fu : Funnel dims g.value s η m0) (hη : 0 ≤ η)
    (hm : η < m0) (h0 : 0 < δ) (h1 : δ < 1) (he : e = δ * η / m0) (hε : ε = min δ (1 - δ) - dims.length * e) (hS : Inner dims 2 s) (hI : Inner dims 1 idx)
    (hsmall : (axisDist dims idx s + 1) * (2 * e) < ε) {k : Nat} {u : St XR} {p : Nat → ℝ} (I : FInv dims s idx e ε k u p) (hne : u.idx ≠ s) :
    ∃ u' q, Step g (fin δ) u u' ∧ FInv dims s idx e ε (k+1) u' q := by
  have hm0 : 0 < m0 := lt_of_le_of_lt hη hm
  have he0 : 0 ≤ e := by rw [he]; positivity
  have hL0 : 0 ≤ axisDist dims idx s := Finset.sum_nonneg (fun _ _ => abs_nonneg _)
  have hε0 : 0 < ε := lt_of_le_of_lt (by positivity) hsmall
  obtain ⟨sl, s1, s2, i0, hi0, s3⟩ := Fu.slope u.idx I.inner hne
  -- the steepest slope
  obtain ⟨j, hj, hjmax⟩ := Finset.exists_max_image (Finset.range dims.length) (fun i => |sl i|) ⟨i0, Finset.mem_range.2 hi0⟩
  rw [Finset.mem_range] at hj
  set m := |sl j| with hmdef
  have hmm : m0 ≤ m := s3.trans (hjmax i0 (Finset.mem_range.2 hi0))
  have hmpos : 0 < m := lt_of_lt_of_le hm0 hmm
  have hle : ∀ i, i < dims.length → |sl i| ≤ m := fun i hi => hjmax i (Finset.mem_range.2 hi)
  have hfull : ∀ i, i < dims.length → δ * sl i / m ≤ δ ∧ -δ ≤ δ * sl i / m := by
    intro i hi
    have := abs_le.1 (hle i hi)
    constructor
    · rw [div_le_iff₀ hmpos]; nlinarith
    · rw [le_div_iff₀ hmpos]; nlinarith
  have hsmallmv : ∀ x, x ≤ η → δ * x / m ≤ e := by
    intro x hx
    rw [he, div_le_div_iff₀ hmpos hm0]
    have a : δ * x ≤ δ * η := by nlinarith
    have b : 0 ≤ δ * η := by positivity
    nlinarith
  have hsmallmv' : ∀ x, -η ≤ x → -e ≤ δ * x / m := by
    intro x hx
    have := hsmallmv (-x) (by linarith)
    have e2 : δ * -x / m = -(δ * x / m) := by ring
    rw [e2] at this; linarith
  -- coordinate by coordinate
  have hcoord : ∀ i, i < dims.length → |p i - δ * sl i / m - coordN dims s i| ≤ |p i - coordN dims s i| + e ∧
      (min (coordN dims s i - 1/2 : ℝ) (p i - e) ≤ p i - δ * sl i / m ∧ p i - δ * sl i / m ≤ max (coordN dims s i + 1/2 : ℝ) (p i + e)) ∧
      (i = j → |p i - δ * sl i / m - coordN dims s i| ≤ |p i - coordN dims s i| - min δ (1 - δ)) := by
    intro i hi
    obtain ⟨c1, c2⟩ := I.cell i hi
    obtain ⟨f1, f2⟩ := hfull i hi
    rcases lt_trichotomy (coordN dims u.idx i) (coordN dims s i) with hlt | heq | hgt
    · have hy : 1/2 ≤ coordN dims s i - p i := by
        have : (coordN dims u.idx i : ℝ) + 1 ≤ coordN dims s i := by exact_mod_cast hlt
        linarith
      have hs2 := hsmallmv _ ((s2 i hi).2 hlt.le)
      obtain ⟨a1, a2, a3⟩ := coord_step (mv := -(δ * sl i / m)) h1.le he0 hy (by linarith) (by linarith)
      have e1 : coordN dims s i - p i - -(δ * sl i / m) = -(p i - δ * sl i / m - coordN dims s i) := by ring
      have e2 : (coordN dims s i : ℝ) - p i = -(p i - coordN dims s i) := by ring
      rw [e1, abs_neg, e2, abs_neg] at a1
      refine ⟨a1, ⟨min_le_of_right_le (by linarith), le_max_of_le_left (by linarith)⟩, ?_⟩
      rintro rfl
      have hneg : sl i = -m := by
        rcases abs_cases (sl i) with ⟨h, h'⟩ | ⟨h, h'⟩
        · exfalso
          have := (s2 i hi).2 hlt.le
          rw [hmdef, h] at hmm
          linarith
        · rw [hmdef, h]; ring
      have e3 : δ * sl i / m = -δ := by rw [hneg]; field_simp
      have := coord_full h0 h1.le hy
      rw [e2, abs_neg] at this
      rw [e3]
      have e4 : p i - -δ - coordN dims s i = -(-(p i - coordN dims s i) - δ) := by ring
      rw [e4, abs_neg]; exact this
    · have hs2 := hsmallmv _ ((s2 i hi).2 heq.le)
      have hs3 := hsmallmv' _ ((s2 i hi).1 heq.ge)
      refine ⟨?_, ⟨min_le_of_right_le (by linarith), le_max_of_le_right (by linarith)⟩, ?_⟩
      · have : |p i - coordN dims s i - δ * sl i / m| ≤ |p i - coordN dims s i| + |δ * sl i / m| := abs_sub _ _
        have h3 : |δ * sl i / m| ≤ e := abs_le.2 ⟨hs3, hs2⟩
        rw [show p i - δ * sl i / m - coordN dims s i = p i - coordN dims s i - δ * sl i / m by ring]
        linarith
      · rintro rfl
        exfalso
        have a := (s2 i hi).1 heq.ge
        have b := (s2 i hi).2 heq.le
        have : |sl i| ≤ η := abs_le.2 ⟨a, b⟩
        linarith
    · have hy : 1/2 ≤ p i - coordN dims s i := by
        have : (coordN dims s i : ℝ) + 1 ≤ coordN dims u.idx i := by exact_mod_cast hgt
        linarith
      have hs2 := hsmallmv' _ ((s2 i hi).1 hgt.le)
      obtain ⟨a1, a2, a3⟩ := coord_step (mv := δ * sl i / m) h1.le he0 hy (by linarith) (by linarith)
      have e1 : p i - coordN dims s i - δ * sl i / m = p i - δ * sl i / m - coordN dims s i := by ring
      rw [e1] at a1 a2 a3
      refine ⟨a1, ⟨min_le_of_left_le (by linarith), le_max_of_le_right (by linarith)⟩, ?_⟩
      rintro rfl
      have hposs : sl i = m := by
        rcases abs_cases (sl i) with ⟨h, h'⟩ | ⟨h, h'⟩
        · rw [hmdef, h]
        · exfalso
          have := (s2 i hi).1 hgt.le
          rw [hmdef, h] at hmm
          linarith
      have e3 : δ * sl i / m = δ := by rw [hposs]; field_simp
      have := coord_full h0 h1.le hy
      rw [e3]
      rw [show p i - δ - coordN dims s i = p i - coordN dims s i - δ by ring]; exact this
  -- the sum
  have hsum : (∑ i ∈ Finset.range dims.length, |p i - δ * sl i / m - coordN dims s i|) ≤ (∑ i ∈ Finset.range dims.length, |p i - coordN dims s i|) - ε := by
    rw [← Finset.add_sum_erase _ _ (Finset.mem_range.2 hj), ← Finset.add_sum_erase (Finset.range dims.length) (fun i => |p i - coordN dims s i|) (Finset.mem_range.2 hj)]
    have a := (hcoord j hj).2.2 rfl
    have b : (∑ i ∈ (Finset.range dims.length).erase j, |p i - δ * sl i / m - coordN dims s i|) ≤
        ∑ i ∈ (Finset.range dims.length).erase j, (|p i - coordN dims s i| + e) :=
      Finset.sum_le_sum (fun i hi => (hcoord i (Finset.mem_range.1 (Finset.mem_of_mem_erase hi))).1)
    rw [Finset.sum_add_distrib, Finset.sum_const, nsmul_eq_mul] at b
    have hcard : (((Finset.range dims.length).erase j).card : ℝ) ≤ dims.length := by
      have : ((Finset.range dims.length).erase j).card ≤ (Finset.range dims.length).card := Finset.card_erase_le
      rw [Finset.card_range] at this; exact_mod_cast this
    have hc2 : (((Finset.range dims.length).erase j).card : ℝ) * e ≤ dims.length * e := by nlinarith
    rw [hε]; linarith
  -- few steps
  have hke : (k + 1 : ℝ) * e < 1/2 := by
    have hS0 : 0 ≤ ∑ i ∈ Finset.range dims.length, |p i - coordN dims s i| := Finset.sum_nonneg (fun _ _ => abs_nonneg _)
    have h3 : k * ε ≤ axisDist dims idx s := by have := I.sum; linarith
    have hε1 : ε ≤ 1/2 := by
      rw [hε]
      have : min δ (1 - δ) ≤ 1/2 := by
        rcases le_total δ (1/2) with h | h
        · exact (min_le_left _ _).trans h
        · exact (min_le_right _ _).trans (by linarith)
      have : 0 ≤ (dims.length : ℝ) * e := by positivity
      linarith
    have h4 : (k + 1 : ℝ) * ε ≤ axisDist dims idx s + 1 := by linarith
    by_contra hcon
    push Not at hcon
    have h5 : (1:ℝ) ≤ 2 * ((k + 1) * e) := by linarith
    have h6 : ε * 1 ≤ ε * (2 * ((k+1) * e)) := by nlinarith
    have h7 : ε * (2 * ((k+1) * e)) = ((k + 1) * ε) * (2 * e) := by ring
    have h8 : ((k + 1 : ℝ) * ε) * (2 * e) ≤ (axisDist dims idx s + 1) * (2 * e) := by nlinarith
    linarith
  have hlo : ∀ i, i < dims.length → min (coordN dims idx i : ℝ) (coordN dims s i - 1/2) - (k + 1) * e ≤ p i - δ * sl i / m := by
    intro i hi
    have a := (hcoord i hi).2.1.1
    have b := I.lo i hi
    have c := min_le_right (coordN dims idx i : ℝ) (coordN dims s i - 1/2)
    have d : 0 ≤ (k + 1 : ℝ) * e := by positivity
    rcases min_le_iff.1 a with a | a <;> linarith
  have hhi : ∀ i, i < dims.length → p i - δ * sl i / m ≤ max (coordN dims idx i : ℝ) (coordN dims s i + 1/2) + (k + 1) * e := by
    intro i hi
    have a := (hcoord i hi).2.1.2
    have b := I.hi i hi
    have c := le_max_right (coordN dims idx i : ℝ) (coordN dims s i + 1/2)
    have d : 0 ≤ (k + 1 : ℝ) * e := by positivity
    rcases le_max_iff.1 a with a | a <;> linarith
  -- the new cell
  have hcell : ∀ i, ∃ c : Nat, i < dims.length → ((c : ℝ) ≤ p i - δ * sl i / m + 1/2 ∧ p i - δ * sl i / m + 1/2 < c + 1) ∧ 1 ≤ c ∧ c + 1 < dims.getD i 0 := by
    intro i
    by_cases hi : i < dims.length
    swap
    · exact ⟨0, fun h => absurd h hi⟩
    have a := hlo i hi
    have b := hhi i hi
    obtain ⟨d1, d2⟩ := hI.2 i hi
    obtain ⟨t1, t2⟩ := hS.2 i hi
    have hge : (1:ℝ) ≤ p i - δ * sl i / m + 1/2 := by
      have x1 : (1:ℝ) ≤ coordN dims idx i := by exact_mod_cast d1
      have x2 : (2:ℝ) ≤ coordN dims s i := by exact_mod_cast t1
      have : (1:ℝ) ≤ min (coordN dims idx i : ℝ) (coordN dims s i - 1/2) := le_min x1 (by linarith)
      linarith
    have hub : p i - δ * sl i / m + 1/2 < dims.getD i 0 - 1 := by
      have x1 : (coordN dims idx i : ℝ) + 2 ≤ dims.getD i 0 := by exact_mod_cast d2
      have x2 : (coordN dims s i : ℝ) + 3 ≤ dims.getD i 0 := by exact_mod_cast t2
      have : max (coordN dims idx i : ℝ) (coordN dims s i + 1/2) ≤ dims.getD i 0 - 2 := max_le (by linarith) (by linarith)
      linarith
    refine ⟨⌊p i - δ * sl i / m + 1/2⌋₊, fun _ => ⟨⟨Nat.floor_le (by linarith), Nat.lt_floor_add_one _⟩, Nat.le_floor (by exact_mod_cast hge), ?_⟩⟩
    have h3 : ((⌊p i - δ * sl i / m + 1/2⌋₊ : ℕ) : ℝ) + 1 < dims.getD i 0 := by
      have := Nat.floor_le (show 0 ≤ p i - δ * sl i / m + 1/2 by linarith)
      linarith
    exact_mod_cast h3
  choose c hc using hcell
  have hbox : InBox dims ((List.range dims.length).map c) := ⟨by simp, fun k hk => by
    rw [List.getD_eq_getElem _ _ (by simpa using hk)]
    have := (hc k hk).2.2
    simp only [List.getElem_map, List.getElem_range]
    omega⟩
  have hrt := C01_coord_roundtrip dims (hf.mono (by norm_num)) _ hbox
  have hnc : (Shape.mk' dims).ncells = dims.prod := mk'_ncells (hf.mono (by norm_num))
  have hcc : ∀ i, i < dims.length → coordN dims ((Shape.mk' dims).coord2idx ((List.range dims.length).map c)) i = c i := by
    intro i hi
    unfold coordN
    rw [hrt.2.2, List.getD_eq_getElem _ _ (by simpa using hi)]
    simp
  have hnb : ∀ i, i < dims.length → strideProd dims i ≤ u.idx ∧ u.idx + strideProd dims i < dims.prod := by
    intro i hi
    obtain ⟨n1, n2, _⟩ := C35_reads_neighbours hf I.inner.1 hi (I.inner.2 i hi).1 (I.inner.2 i hi).2
    exact ⟨n1, n2⟩
  have hnx := next_of hf hs p I.point (fun i hi => (hnb i hi).1) (fun i hi => (hnb i hi).2) sl s1 m hmpos hle ⟨j, hj, rfl⟩ c
    (fun i hi => by have := (hc i hi).2.2; omega) (fun i hi => (hc i hi).1)
  refine ⟨_, fun i => p i - δ * sl i / m, ⟨?_, hnx⟩, ⟨rfl, ?_, ?_, ?_, ?_, ?_⟩⟩
  · obtain ⟨r, r1, r2⟩ := Fu.pos _ I.inner.1 hne
    unfold Done
    rw [r1]
    show ¬ XR.eq (fin r) (fin 0) = true
    simp [XR.eq, r2]
  · refine ⟨hnc ▸ hrt.1, fun i hi => ?_⟩
    dsimp only
    rw [hcc i hi]
    exact ⟨(hc i hi).2.1, (hc i hi).2.2⟩
  · intro i hi
    dsimp only
    rw [hcc i hi]
    exact (hc i hi).1
  · have := I.sum
    push_cast
    linarith
  · intro i hi; push_cast; exact hlo i hi
  · intro i hi; push_cast; exact hhi i hi

/-- gradient descent in a funnel arrives -/
theorem funnel_runs (hf : Fits dims (2^31+1)) (hs : g.shape = Shape.mk' dims) {s idx : Nat} {η m0 δ e ε : ℝ} (Fu : Funnel dims g.value s η m0) (hη : 0 ≤ η)
    (hm : η < m0) (h0 : 0 < δ) (h1 : δ < 1) (he : e = δ * η / m0) (hε : ε = min δ (1 - δ) - dims.length * e) (hS : Inner dims 2 s) (hI : Inner dims 1 idx)
    (hsmall : (axisDist dims idx s + 1) * (2 * e) < ε) :
    ∃ path vels, Runs g idx (fin δ) path vels s := by
  have hnc : g.shape.ncells = dims.prod := by rw [hs]; exact mk'_ncells (hf.mono (by norm_num))
  have hm0 : 0 < m0 := lt_of_le_of_lt hη hm
  have he0 : 0 ≤ e := by rw [he]; positivity
  have hL0 : 0 ≤ axisDist dims idx s := Finset.sum_nonneg (fun _ _ => abs_nonneg _)
  have hε0 : 0 < ε := lt_of_le_of_lt (by positivity) hsmall
  have hinit : init g idx = some ⟨idx, toPoint (g.shape.idx2coord idx), [toPoint (g.shape.idx2coord idx)], [g.vel idx]⟩ := by
    unfold init; rw [hnc, if_pos hI.1]
  generalize hu0 : (⟨idx, toPoint (g.shape.idx2coord idx), [toPoint (g.shape.idx2coord idx)], [g.vel idx]⟩ : St XR) = u0 at hinit
  have I0 : FInv dims s idx e ε 0 u0 (fun i => (coordN dims idx i : ℝ)) := by
    subst hu0
    refine ⟨?_, hI, fun i hi => ⟨by dsimp only; linarith, by dsimp only; linarith⟩, ?_, ?_, ?_⟩
    · dsimp only
      rw [hs, toPoint_eq]
      congr 1
      unfold centre coordN
      have hl : ((Shape.mk' dims).idx2coord idx).length = dims.length := by
        rw [idx2coord_eq (hf.mono (by norm_num)) hI.1]; simp
      apply List.ext_getElem
      · simp [hl]
      · intro i h1 h2
        have : i < ((Shape.mk' dims).idx2coord idx).length := by simpa using h1
        simp only [List.getElem_map, List.getElem_range, List.getD_eq_getElem _ _ this]
    · unfold axisDist; simp
    · intro i hi; simp
    · intro i hi; simp
  have hex : (∃ j u, FMM.Steps (Step g (fin δ)) j u0 u ∧ u.idx = s) ∨ ∀ k : Nat, ∃ u p, FMM.Steps (Step g (fin δ)) k u0 u ∧ FInv dims s idx e ε k u p := by
    by_cases hd : ∃ j u, FMM.Steps (Step g (fin δ)) j u0 u ∧ u.idx = s
    · exact .inl hd
    · right
      intro k
      induction k with
      | zero => exact ⟨u0, _, .refl _, I0⟩
      | succ k ih =>
        obtain ⟨u, p, st, I⟩ := ih
        obtain ⟨u', q, a, b⟩ := funnel_step hf hs Fu hη hm h0 h1 he hε hS hI hsmall I (fun h => hd ⟨k, u, st, h⟩)
        exact ⟨u', q, .tail st a, b⟩
  rcases hex with ⟨j, u, st, hu⟩ | hall
  · exact ⟨_, _, u0, j, u, hinit, st, by unfold Done; rw [hu, Fu.zero]; show XR.eq (fin 0) (fin 0) = true; simp [XR.eq], rfl, rfl, hu.symm⟩
  · exfalso
    obtain ⟨k, hk⟩ := exists_nat_gt (axisDist dims idx s / ε)
    obtain ⟨u, p, _, I⟩ := hall k
    have hS0 : 0 ≤ ∑ i ∈ Finset.range dims.length, |p i - coordN dims s i| := Finset.sum_nonneg (fun _ _ => abs_nonneg _)
    have := I.sum
    rw [div_lt_iff₀ hε0] at hk
    linarith

end GD
end FMV
