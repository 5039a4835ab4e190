import Verif.Lemmas.Funnel
/-!
Gradient descent with a step of at most 1 arrives if the slopes point exactly towards the start.
-/
set_option linter.unusedSectionVars false
set_option linter.unusedVariables false
namespace FMV
open Arith Spec Shape
namespace GD
open XR
variable {dims : List Nat} {g : Grid XR}

/-- how far a coordinate is from the start cell: 0 inside its row, otherwise the distance plus 1/2 -/
noncomputable def gap (y : ℝ) : ℝ := if -1/2 ≤ y ∧ y < 1/2 then 0 else |y| + 1/2

theorem gap_nonneg (y : ℝ) : 0 ≤ gap y := by
  unfold gap
  split
  · exact le_refl _
  · have := abs_nonneg y; linarith

/-- a step towards the start from the right -/
theorem gap_pos {y mv δ : ℝ} (hδ : δ ≤ 1) (h1 : 1/2 ≤ y) (h2 : 0 ≤ mv) (h3 : mv ≤ δ) : gap (y - mv) ≤ gap y - mv := by
  have e1 : gap y = y + 1/2 := by
    unfold gap
    rw [if_neg (fun h => absurd h.2 (not_lt.2 h1)), abs_of_pos (by linarith)]
  rw [e1]
  unfold gap
  split
  · linarith
  · rename_i h
    have : 1/2 ≤ y - mv := by
      by_contra hc
      exact h ⟨by linarith, not_le.1 hc⟩
    rw [abs_of_pos (by linarith)]; linarith

/-- a step towards the start from the left -/
theorem gap_neg {y mv δ : ℝ} (hδ : δ ≤ 1) (h1 : y < -1/2) (h2 : 0 ≤ mv) (h3 : mv ≤ δ) : gap (y + mv) ≤ gap y - mv := by
  have e1 : gap y = -y + 1/2 := by
    unfold gap
    rw [if_neg (fun h => absurd h.1 (not_le.2 h1)), abs_of_neg (by linarith)]
  rw [e1]
  unfold gap
  split
  · linarith
  · rename_i h
    have : y + mv < -1/2 := by
      by_contra hc
      exact h ⟨not_lt.1 hc, by linarith⟩
    rw [abs_of_neg (by linarith)]; linarith

structure FInv1 (dims : List Nat) (s idx : Nat) (δ : ℝ) (k : Nat) (u : St XR) (p : Nat → ℝ) : Prop where
  point : u.point = ((List.range dims.length).map p).map fin
  inner : Inner dims 1 u.idx
  cell : ∀ i, i < dims.length → (coordN dims u.idx i : ℝ) ≤ p i + 1/2 ∧ p i + 1/2 < coordN dims u.idx i + 1
  sum : (∑ i ∈ Finset.range dims.length, gap (p i - coordN dims s i)) + k * δ ≤ ∑ i ∈ Finset.range dims.length, gap (coordN dims idx i - coordN dims s i)
  lo : ∀ i, i < dims.length → min (coordN dims idx i : ℝ) (coordN dims s i - 1/2) ≤ p i
  hi : ∀ i, i < dims.length → p i ≤ max (coordN dims idx i : ℝ) (coordN dims s i + 1/2)

theorem funnel_step1 (hf : Fits dims (2^31+1)) (hs : g.shape = Shape.mk' dims) {s idx : Nat} {m0 δ : ℝ} (Fu : Funnel dims g.value s 0 m0)
    (hm0 : 0 < m0) (h0 : 0 < δ) (h1 : δ ≤ 1) (hS : Inner dims 2 s) (hI : Inner dims 1 idx)
    {k : Nat} {u : St XR} {p : Nat → ℝ} (I : FInv1 dims s idx δ k u p) (hne : u.idx ≠ s) :
    ∃ u' q, Step g (fin δ) u u' ∧ FInv1 dims s idx δ (k+1) u' q := by
  obtain ⟨sl, s1, s2, i0, hi0, s3⟩ := Fu.slope u.idx I.inner hne
  obtain ⟨j, hj, hjmax⟩ := Finset.exists_max_image (Finset.range dims.length) (fun i => |sl i|) ⟨i0, Finset.mem_range.2 hi0⟩
  rw [Finset.mem_range] at hj
  set m := |sl j| with hmdef
  have hmm : m0 ≤ m := s3.trans (hjmax i0 (Finset.mem_range.2 hi0))
  have hmpos : 0 < m := lt_of_lt_of_le hm0 hmm
  have hle : ∀ i, i < dims.length → |sl i| ≤ m := fun i hi => hjmax i (Finset.mem_range.2 hi)
  have hfull : ∀ i, i < dims.length → δ * sl i / m ≤ δ ∧ -δ ≤ δ * sl i / m := by
    intro i hi
    have := abs_le.1 (hle i hi)
    constructor
    · rw [div_le_iff₀ hmpos]; nlinarith
    · rw [le_div_iff₀ hmpos]; nlinarith
  -- coordinate by coordinate
  have hcoord : ∀ i, i < dims.length → gap (p i - δ * sl i / m - coordN dims s i) ≤ gap (p i - coordN dims s i) - |δ * sl i / m| ∧
      (min (coordN dims s i - 1/2 : ℝ) (p i) ≤ p i - δ * sl i / m ∧ p i - δ * sl i / m ≤ max (coordN dims s i + 1/2 : ℝ) (p i)) := by
    intro i hi
    obtain ⟨c1, c2⟩ := I.cell i hi
    obtain ⟨f1, f2⟩ := hfull i hi
    rcases lt_trichotomy (coordN dims u.idx i) (coordN dims s i) with hlt | heq | hgt
    · have hy : p i - coordN dims s i < -1/2 := by
        have : (coordN dims u.idx i : ℝ) + 1 ≤ coordN dims s i := by exact_mod_cast hlt
        linarith
      have hn : sl i ≤ 0 := (s2 i hi).2 hlt.le
      have hmv : δ * sl i / m ≤ 0 := div_nonpos_of_nonpos_of_nonneg (by nlinarith) hmpos.le
      have := gap_neg (mv := -(δ * sl i / m)) h1 hy (by linarith) (by linarith)
      rw [abs_of_nonpos hmv]
      refine ⟨?_, min_le_of_right_le (by linarith), le_max_of_le_left (by linarith)⟩
      rw [show p i - δ * sl i / m - coordN dims s i = p i - coordN dims s i + -(δ * sl i / m) by ring]; exact this
    · have hz : sl i = 0 := le_antisymm ((s2 i hi).2 heq.le) (by have := (s2 i hi).1 heq.ge; linarith)
      rw [hz]
      simp
    · have hy : 1/2 ≤ p i - coordN dims s i := by
        have : (coordN dims s i : ℝ) + 1 ≤ coordN dims u.idx i := by exact_mod_cast hgt
        linarith
      have hn : 0 ≤ sl i := by have := (s2 i hi).1 hgt.le; linarith
      have hmv : 0 ≤ δ * sl i / m := by positivity
      have := gap_pos (mv := δ * sl i / m) h1 hy hmv f1
      rw [abs_of_nonneg hmv]
      refine ⟨?_, min_le_of_left_le (by linarith), le_max_of_le_right (by linarith)⟩
      rw [show p i - δ * sl i / m - coordN dims s i = p i - coordN dims s i - δ * sl i / m by ring]; exact this
  have hsum : (∑ i ∈ Finset.range dims.length, gap (p i - δ * sl i / m - coordN dims s i)) ≤ (∑ i ∈ Finset.range dims.length, gap (p i - coordN dims s i)) - δ := by
    rw [← Finset.add_sum_erase _ _ (Finset.mem_range.2 hj), ← Finset.add_sum_erase (Finset.range dims.length) (fun i => gap (p i - coordN dims s i)) (Finset.mem_range.2 hj)]
    have a := (hcoord j hj).1
    have hj' : |δ * sl j / m| = δ := by
      rw [abs_div, abs_mul, ← hmdef, abs_of_pos hmpos, abs_of_pos h0]; field_simp
    rw [hj'] at a
    have b : (∑ i ∈ (Finset.range dims.length).erase j, gap (p i - δ * sl i / m - coordN dims s i)) ≤
        ∑ i ∈ (Finset.range dims.length).erase j, gap (p i - coordN dims s i) :=
      Finset.sum_le_sum (fun i hi => by
        have := (hcoord i (Finset.mem_range.1 (Finset.mem_of_mem_erase hi))).1
        have h2 := abs_nonneg (δ * sl i / m)
        linarith)
    linarith
  have hlo : ∀ i, i < dims.length → min (coordN dims idx i : ℝ) (coordN dims s i - 1/2) ≤ p i - δ * sl i / m := by
    intro i hi
    have a := (hcoord i hi).2.1
    have b := I.lo i hi
    have c := min_le_right (coordN dims idx i : ℝ) (coordN dims s i - 1/2)
    rcases min_le_iff.1 a with a | a <;> linarith
  have hhi : ∀ i, i < dims.length → p i - δ * sl i / m ≤ max (coordN dims idx i : ℝ) (coordN dims s i + 1/2) := by
    intro i hi
    have a := (hcoord i hi).2.2
    have b := I.hi i hi
    have c := le_max_right (coordN dims idx i : ℝ) (coordN dims s i + 1/2)
    rcases le_max_iff.1 a with a | a <;> linarith
  -- the new cell
  have hcell : ∀ i, ∃ c : Nat, i < dims.length → ((c : ℝ) ≤ p i - δ * sl i / m + 1/2 ∧ p i - δ * sl i / m + 1/2 < c + 1) ∧ 1 ≤ c ∧ c + 1 < dims.getD i 0 := by
    intro i
    by_cases hi : i < dims.length
    swap
    · exact ⟨0, fun h => absurd h hi⟩
    have a := hlo i hi
    have b := hhi i hi
    obtain ⟨d1, d2⟩ := hI.2 i hi
    obtain ⟨t1, t2⟩ := hS.2 i hi
    have hge : (1:ℝ) ≤ p i - δ * sl i / m + 1/2 := by
      have x1 : (1:ℝ) ≤ coordN dims idx i := by exact_mod_cast d1
      have x2 : (2:ℝ) ≤ coordN dims s i := by exact_mod_cast t1
      have : (1:ℝ) ≤ min (coordN dims idx i : ℝ) (coordN dims s i - 1/2) := le_min x1 (by linarith)
      linarith
    have hub : p i - δ * sl i / m + 1/2 < dims.getD i 0 - 1 := by
      have x1 : (coordN dims idx i : ℝ) + 2 ≤ dims.getD i 0 := by exact_mod_cast d2
      have x2 : (coordN dims s i : ℝ) + 3 ≤ dims.getD i 0 := by exact_mod_cast t2
      have : max (coordN dims idx i : ℝ) (coordN dims s i + 1/2) ≤ dims.getD i 0 - 2 := max_le (by linarith) (by linarith)
      linarith
    refine ⟨⌊p i - δ * sl i / m + 1/2⌋₊, fun _ => ⟨⟨Nat.floor_le (by linarith), Nat.lt_floor_add_one _⟩, Nat.le_floor (by exact_mod_cast hge), ?_⟩⟩
    have h3 : ((⌊p i - δ * sl i / m + 1/2⌋₊ : ℕ) : ℝ) + 1 < dims.getD i 0 := by
      have := Nat.floor_le (show 0 ≤ p i - δ * sl i / m + 1/2 by linarith)
      linarith
    exact_mod_cast h3
  choose c hc using hcell
  have hbox : InBox dims ((List.range dims.length).map c) := ⟨by simp, fun k hk => by
    rw [List.getD_eq_getElem _ _ (by simpa using hk)]
    have := (hc k hk).2.2
    simp only [List.getElem_map, List.getElem_range]
    omega⟩
  have hrt := C01_coord_roundtrip dims (hf.mono (by norm_num)) _ hbox
  have hnc : (Shape.mk' dims).ncells = dims.prod := mk'_ncells (hf.mono (by norm_num))
  have hcc : ∀ i, i < dims.length → coordN dims ((Shape.mk' dims).coord2idx ((List.range dims.length).map c)) i = c i := by
    intro i hi
    unfold coordN
    rw [hrt.2.2, List.getD_eq_getElem _ _ (by simpa using hi)]
    simp
  have hnb : ∀ i, i < dims.length → strideProd dims i ≤ u.idx ∧ u.idx + strideProd dims i < dims.prod := by
    intro i hi
    obtain ⟨n1, n2, _⟩ := C35_reads_neighbours hf I.inner.1 hi (I.inner.2 i hi).1 (I.inner.2 i hi).2
    exact ⟨n1, n2⟩
  have hnx := next_of hf hs p I.point (fun i hi => (hnb i hi).1) (fun i hi => (hnb i hi).2) sl s1 m hmpos hle ⟨j, hj, rfl⟩ c
    (fun i hi => by have := (hc i hi).2.2; omega) (fun i hi => (hc i hi).1)
  refine ⟨_, fun i => p i - δ * sl i / m, ⟨?_, hnx⟩, ⟨rfl, ?_, ?_, ?_, ?_, ?_⟩⟩
  · obtain ⟨r, r1, r2⟩ := Fu.pos _ I.inner.1 hne
    unfold Done
    rw [r1]
    show ¬ XR.eq (fin r) (fin 0) = true
    simp [XR.eq, r2]
  · refine ⟨hnc ▸ hrt.1, fun i hi => ?_⟩
    dsimp only
    rw [hcc i hi]
    exact ⟨(hc i hi).2.1, (hc i hi).2.2⟩
  · intro i hi
    dsimp only
    rw [hcc i hi]
    exact (hc i hi).1
  · have := I.sum
    push_cast
    linarith
  · intro i hi; exact hlo i hi
  · intro i hi; exact hhi i hi

/-- gradient descent in a funnel arrives -/
theorem funnel_runs1 (hf : Fits dims (2^31+1)) (hs : g.shape = Shape.mk' dims) {s idx : Nat} {m0 δ : ℝ} (Fu : Funnel dims g.value s 0 m0)
    (hm0 : 0 < m0) (h0 : 0 < δ) (h1 : δ ≤ 1) (hS : Inner dims 2 s) (hI : Inner dims 1 idx) :
    ∃ path vels, Runs g idx (fin δ) path vels s := by
  have hnc : g.shape.ncells = dims.prod := by rw [hs]; exact mk'_ncells (hf.mono (by norm_num))
  have hinit : init g idx = some ⟨idx, toPoint (g.shape.idx2coord idx), [toPoint (g.shape.idx2coord idx)], [g.vel idx]⟩ := by
    unfold init; rw [hnc, if_pos hI.1]
  generalize hu0 : (⟨idx, toPoint (g.shape.idx2coord idx), [toPoint (g.shape.idx2coord idx)], [g.vel idx]⟩ : St XR) = u0 at hinit
  have I0 : FInv1 dims s idx δ 0 u0 (fun i => (coordN dims idx i : ℝ)) := by
    subst hu0
    refine ⟨?_, hI, fun i hi => ⟨by dsimp only; linarith, by dsimp only; linarith⟩, ?_, ?_, ?_⟩
    · dsimp only
      rw [hs, toPoint_eq]
      congr 1
      unfold centre coordN
      have hl : ((Shape.mk' dims).idx2coord idx).length = dims.length := by
        rw [idx2coord_eq (hf.mono (by norm_num)) hI.1]; simp
      apply List.ext_getElem
      · simp [hl]
      · intro i h1 h2
        have : i < ((Shape.mk' dims).idx2coord idx).length := by simpa using h1
        simp only [List.getElem_map, List.getElem_range, List.getD_eq_getElem _ _ this]
    · simp
    · intro i hi; simp
    · intro i hi; simp
  have hex : (∃ j u, FMM.Steps (Step g (fin δ)) j u0 u ∧ u.idx = s) ∨ ∀ k : Nat, ∃ u p, FMM.Steps (Step g (fin δ)) k u0 u ∧ FInv1 dims s idx δ k u p := by
    by_cases hd : ∃ j u, FMM.Steps (Step g (fin δ)) j u0 u ∧ u.idx = s
    · exact .inl hd
    · right
      intro k
      induction k with
      | zero => exact ⟨u0, _, .refl _, I0⟩
      | succ k ih =>
        obtain ⟨u, p, st, I⟩ := ih
        obtain ⟨u', q, a, b⟩ := funnel_step1 hf hs Fu hm0 h0 h1 hS hI I (fun h => hd ⟨k, u, st, h⟩)
        exact ⟨u', q, .tail st a, b⟩
  rcases hex with ⟨j, u, st, hu⟩ | hall
  · exact ⟨_, _, u0, j, u, hinit, st, by unfold Done; rw [hu, Fu.zero]; show XR.eq (fin 0) (fin 0) = true; simp [XR.eq], rfl, rfl, hu.symm⟩
  · exfalso
    obtain ⟨k, hk⟩ := exists_nat_gt ((∑ i ∈ Finset.range dims.length, gap (coordN dims idx i - coordN dims s i)) / δ)
    obtain ⟨u, p, _, I⟩ := hall k
    have hS0 : 0 ≤ ∑ i ∈ Finset.range dims.length, gap (p i - coordN dims s i) := Finset.sum_nonneg (fun _ _ => gap_nonneg _)
    have := I.sum
    rw [div_lt_iff₀ h0] at hk
    linarith

end GD
end FMV
