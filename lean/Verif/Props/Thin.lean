import Verif.Props.Walk
import Verif.Props.Metric
/-! C108: maps that are one cell thick in some dimensions. -/
set_option linter.unusedSectionVars false
set_option linter.unusedVariables false
namespace FMV
open Spec Shape XR FMM Arith

namespace Thin

/-- a corridor of `M` cells, declared with `d` further dimensions of one cell each -/
abbrev dims (M d : Nat) : List Nat := M :: List.replicate d 1

theorem prod (M d : Nat) : (dims M d).prod = M := by simp [dims]

theorem fits {M d : Nat} (hM : 0 < M) (hM2 : M < 2^31 + 1) (hd : 1 ≤ d) : Fits (dims M d) (2^31+1) := by
  refine ⟨by simp [dims]; omega, ?_, by rw [prod]; exact hM2⟩
  intro x hx
  rcases List.mem_cons.1 hx with rfl | hx
  · exact hM
  · rw [List.eq_of_mem_replicate hx]; exact Nat.one_pos

variable {M d : Nat}

theorem nbrs0 (hM : 0 < M) (hM2 : M < 2^31 + 1) (hd : 1 ≤ d) {i : Nat} (hi : i < M) :
    (Shape.mk' (dims M d)).nbrsDim i 0 = (if 0 < i then [i - 1] else []) ++ (if i + 1 < M then [i + 1] else []) := by
  rw [nbrsDim_eq (fits hM hM2 hd) (by rw [prod]; exact hi) (by simp [dims])]
  have : digit (dims M d) i 0 = i := by simp [digit, strideOf, dims, Nat.mod_eq_of_lt hi]
  rw [this]; simp [strideOf, dims]

theorem nbrsk (hM : 0 < M) (hM2 : M < 2^31 + 1) (hd : 1 ≤ d) {i k : Nat} (hi : i < M) (hk : k < d) :
    (Shape.mk' (dims M d)).nbrsDim i (k+1) = [] := by
  have hkl : k + 1 < (dims M d).length := by simp [dims]; omega
  have hg : (dims M d).getD (k+1) 0 = 1 := by simp [dims, List.getD_eq_getElem?_getD, hk]
  rw [nbrsDim_eq (fits hM hM2 hd) (by rw [prod]; exact hi) hkl, hg]
  have := digit_lt (fits hM hM2 hd).pos hkl i
  rw [hg] at this
  simp [show digit (dims M d) i (k+1) = 0 by omega]

theorem nbrs (hM : 0 < M) (hM2 : M < 2^31 + 1) (hd : 1 ≤ d) {i : Nat} (hi : i < M) :
    (Shape.mk' (dims M d)).nbrs i = (if 0 < i then [i - 1] else []) ++ (if i + 1 < M then [i + 1] else []) := by
  unfold Shape.nbrs Shape.ndims
  have hl : (Shape.mk' (dims M d)).dims.length = d + 1 := by simp [Shape.mk', dims]
  rw [hl, List.range_succ_eq_map, List.flatMap_cons, nbrs0 hM hM2 hd hi, List.flatMap_map]
  have : (List.range d).flatMap (fun k => (Shape.mk' (dims M d)).nbrsDim i (Nat.succ k)) = [] := by
    rw [List.flatMap_eq_nil_iff]
    intro k hk
    exact nbrsk hM hM2 hd hi (List.mem_range.1 hk)
  rw [this, List.append_nil]

/-- the further dimensions repeat what is in the buffer -/
theorem collect (hM : 0 < M) (hM2 : M < 2^31 + 1) (hd : 1 ≤ d) {j : Nat} (hj : j < M) {a : ℝ} : ∀ (ds : List Nat) (g : Grid XR) (acc : List XR),
    g.shape = Shape.mk' (dims M d) → g.value g.scratch.1 = fin a → g.value g.scratch.2 = pinf → g.value j = pinf → (∀ k ∈ ds, ∃ m, k = m + 1 ∧ m < d) →
    collectS j ds g acc = (acc ++ List.replicate ds.length (fin a), g)
  | [], g, acc, _, _, _, _, _ => by simp [collectS]
  | k :: ds, g, acc, hs, h1, h2, h3, hk => by
    obtain ⟨m, rfl, hm⟩ := hk _ List.mem_cons_self
    have hn : g.shape.nbrsDim j (m+1) = [] := by rw [hs]; exact nbrsk hM hM2 hd hj hm
    have e : g.getMinValueInDimS j (m+1) = (fin a, g) := by
      unfold Grid.getMinValueInDimS
      simp only [hn, List.length_nil, h1, h2]
      simp [Arith.lt, XR.lt]
    unfold collectS
    rw [e]
    dsimp only
    have hc : (!(isInf (fin a : XR)) && Arith.lt (fin a) (g.value j)) = true := by rw [h3]; rfl
    rw [if_pos hc, collect hM hM2 hd hj ds g _ hs h1 h2 h3 (fun k hk' => hk k (by simp [hk'])), List.append_assoc, List.length_cons, List.replicate_succ]
    rfl

/-- `n` equal times: the local solver returns that time plus the crossing time over the root of `n` -/
theorem solve_equal {h v a : ℝ} (hh : 0 < h) (hv : 0 < v) {n : Nat} (hn : 1 ≤ n) (hc : n * eps^2 ≤ (h/v)^2) :
    solveList (fin h) (fin v) (List.replicate n (fin a)) = fin (a + h / v / Real.sqrt n) := by
  have hpos : 0 < h / v := div_pos hh hv
  have hn0 : (0:ℝ) < n := by exact_mod_cast hn
  rw [show List.replicate n (fin a) = (List.replicate n a).map fin by rw [List.map_replicate], solveList_fin hh hv]
  obtain ⟨u, used, unused, h1, h2, h3, h4, h5, h6, h7⟩ := eikR_spec hpos (ts := List.replicate n a) (by simp; omega)
  rw [h1]
  have hall : ∀ t ∈ used ++ unused, t = a := fun t ht => List.eq_of_mem_replicate (h2.symm.subset ht)
  have hlen := h2.length_eq
  rw [List.length_replicate, List.length_append] at hlen
  have hz : ∀ l : List ℝ, (∀ t ∈ l, t = a) → sqs u l = l.length * (u - a)^2 := by
    intro l
    induction l with
    | nil => simp
    | cons b l ih =>
      intro hl
      rw [sqs_cons, ih (fun t ht => hl t (by simp [ht])), hl b (by simp), List.length_cons]; push_cast; ring
  have hs := hz used (fun t ht => hall t (by simp [ht]))
  rw [h4] at hs
  obtain ⟨b0, hb0⟩ := List.exists_mem_of_ne_nil _ h3
  have hau : a ≤ u := by rw [← hall b0 (by simp [hb0])]; exact h5 b0 hb0
  have hun : unused = [] := by
    by_contra hcon
    obtain ⟨b, hb⟩ := List.exists_mem_of_ne_nil _ hcon
    have h8 := h6 b hb
    rw [hall b (by simp [hb])] at h8
    have h9 : (u - a)^2 < eps^2 := pow_lt_pow_left₀ (by linarith) (by linarith) (by norm_num)
    have h10 : (used.length : ℝ) ≤ n := by exact_mod_cast (by omega : used.length ≤ n)
    have h11 : 0 < (used.length : ℝ) := by exact_mod_cast List.length_pos_iff.2 h3
    have : (used.length : ℝ) * (u - a)^2 < used.length * eps^2 := mul_lt_mul_of_pos_left h9 h11
    have : (used.length : ℝ) * eps^2 ≤ n * eps^2 := mul_le_mul_of_nonneg_right h10 (sq_nonneg _)
    linarith
  rw [hun, List.length_nil, add_zero] at hlen
  rw [← hlen] at hs
  have hsq : Real.sqrt n ^ 2 = n := Real.sq_sqrt hn0.le
  have hs0 : 0 < Real.sqrt n := Real.sqrt_pos.2 hn0
  have : u - a = h / v / Real.sqrt n := by
    rw [eq_div_iff hs0.ne']
    have h12 : ((u - a) * Real.sqrt n)^2 = (h/v)^2 := by rw [mul_pow, hsq, hs]; ring
    have h13 : 0 ≤ (u - a) * Real.sqrt n := mul_nonneg (by linarith) hs0.le
    exact (pow_left_inj₀ h13 hpos.le (by norm_num)).1 h12
  show fin u = _
  rw [← this]; ring_nf

theorem collect_cons {idx dim : Nat} {ds : List Nat} {g g' : Grid XR} {acc : List XR} {m : XR} (e : g.getMinValueInDimS idx dim = (m, g')) :
    collectS idx (dim :: ds) g acc = collectS idx ds g' (if !(isInf m) && Arith.lt m (g'.value idx) then acc ++ [m] else acc) := by
  rw [collectS, e]

/-- what the local solver computes at cell `j` when the wave has just frozen cell `j - 1` -/
theorem eik (hM : 0 < M) (hM2 : M < 2^31 + 1) (hd : 1 ≤ d) {j : Nat} (hj0 : 0 < j) (hj : j < M) {h v a : ℝ} (hh : 0 < h) (hv : 0 < v)
    (hc : ((d + 1 : Nat) : ℝ) * eps^2 ≤ (h/v)^2) {g : Grid XR} (hs : g.shape = Shape.mk' (dims M d)) (hl : g.leaf = fin h) (hvel : g.vel j = fin v)
    (h1 : g.value (j-1) = fin a) (h2 : g.value j = pinf) (h3 : j + 1 < M → g.value (j+1) = pinf) (h4 : ¬ j + 1 < M → g.value g.scratch.2 = pinf) :
    (eikS g j).1 = fin (a + h / v / Real.sqrt ((d + 1 : Nat) : ℝ)) ∧ (j + 1 < M → (eikS g j).2.2 = j + 1) := by
  have hn : g.shape.nbrsDim j 0 = [j - 1] ++ (if j + 1 < M then [j + 1] else []) := by
    rw [hs, nbrs0 hM hM2 hd hj, if_pos hj0]
  have hdims : g.shape.ndims = d + 1 := by rw [hs]; simp [Shape.ndims, Shape.mk', dims]
  -- the first dimension
  obtain ⟨g', e, k1, k2, k3, k4, k5, k6⟩ : ∃ g', g.getMinValueInDimS j 0 = (fin a, g') ∧ g'.shape = g.shape ∧ g'.leaf = g.leaf ∧ (∀ k, g'.cells k = g.cells k) ∧
      g'.scratch.1 = j - 1 ∧ g'.value g'.scratch.2 = pinf ∧ (j + 1 < M → g'.scratch.2 = j + 1) := by
    by_cases hjM : j + 1 < M
    · refine ⟨{ g with scratch := (j - 1, j + 1) }, ?_, rfl, rfl, fun _ => rfl, rfl, h3 hjM, fun _ => rfl⟩
      unfold Grid.getMinValueInDimS
      rw [hn, if_pos hjM]
      simp [h1, h3 hjM, Arith.lt, XR.lt]
    · refine ⟨{ g with scratch := (j - 1, g.scratch.2) }, ?_, rfl, rfl, fun _ => rfl, rfl, h4 hjM, fun hc => absurd hc hjM⟩
      unfold Grid.getMinValueInDimS
      rw [hn, if_neg hjM]
      simp [h1]
  have hval : ∀ k, g'.value k = g.value k := fun k => by unfold Grid.value; rw [k3]
  have hcoll : collectS j (List.range (d+1)) g [] = (List.replicate (d+1) (fin a), g') := by
    have hacc : (if !(isInf (fin a : XR)) && Arith.lt (fin a) (g'.value j) then [] ++ [fin a] else ([] : List XR)) = [fin a] := by
      rw [hval, h2]; rfl
    rw [List.range_succ_eq_map, collect_cons e, hacc, collect hM hM2 hd hj _ g' [fin a] (k1.trans hs) (by rw [k4, hval, h1]) k5 (by rw [hval, h2]) (by
      intro k hk
      obtain ⟨m, hm, rfl⟩ := List.mem_map.1 hk
      exact ⟨m, rfl, List.mem_range.1 hm⟩), List.length_map, List.length_range, List.replicate_succ, List.singleton_append]
  have hS : solveEikonalS g j = (solveList g.leaf (g.vel j) (List.replicate (d+1) (fin a)), g') := by
    unfold solveEikonalS
    rw [hdims, hcoll]
    dsimp only
    rw [k2]
    have : g'.vel j = g.vel j := by unfold Grid.vel; rw [k3]
    rw [this]
  unfold eikS
  rw [hS]
  exact ⟨by rw [hl, hvel]; exact solve_equal hh hv (by omega) hc, k6⟩

/-- the state of the run when the wave has reached cell `m` of the corridor -/
structure Cor (M : Nat) (q : ℝ) (g0 : Grid XR) (m : Nat) (s : St XR) : Prop where
  le : m ≤ M
  map : SameMap g0 s.g
  val : ∀ i, i < M → s.g.value i = if i ≤ m then fin (i * q) else pinf
  fz : ∀ i, i < m → s.g.state i = .frozen
  op : ∀ i, m < i → i < M → s.g.state i = .opn
  heap : s.heap = if m < M then [m] else []
  scr : 1 ≤ m → m + 1 < M → s.g.scratch.2 = m + 1

theorem applyHeur_scratch (cfg : Cfg XR) (g : Grid XR) (i : Nat) : (applyHeur cfg g i).scratch = g.scratch := by
  unfold applyHeur; split <;> rfl

theorem applyHeur_st (cfg : Cfg XR) (g : Grid XR) (i k : Nat) : (applyHeur cfg g i).state k = g.state k := by
  unfold applyHeur; split <;> simp

theorem Cor.step {h v : ℝ} (hM : 3 ≤ M) (hM2 : M < 2^31 + 1) (hd : 1 ≤ d) (hh : 0 < h) (hv : 0 < v) (hc : ((d + 1 : Nat) : ℝ) * eps^2 ≤ (h/v)^2)
    {g0 : Grid XR} (hs : g0.shape = Shape.mk' (dims M d)) (hl : g0.leaf = fin h) (hvel : ∀ i, i < M → g0.vel i = fin v) (hocc : ∀ i, i < M → g0.occ i = false)
    {cfg : Cfg XR} {m x : Nat} {s : St XR} (C : Cor M (h / v / Real.sqrt ((d + 1 : Nat) : ℝ)) g0 m s) (hx : x ∈ s.heap) :
    Cor M (h / v / Real.sqrt ((d + 1 : Nat) : ℝ)) g0 (m+1) (expand cfg eikS s x) := by
  set q := h / v / Real.sqrt ((d + 1 : Nat) : ℝ) with hq
  have hmM : m < M := by
    by_contra hcon
    rw [C.heap, if_neg hcon] at hx; cases hx
  rw [C.heap, if_pos hmM, List.mem_singleton] at hx
  subst hx
  have hsh : s.g.shape = Shape.mk' (dims M d) := C.map.shape.trans hs
  have hpm : SameMap g0 (popped s x).g := C.map.trans (popped_sameMap s x)
  have pst : ∀ k, (popped s x).g.state k = if k = x then .frozen else s.g.state k := fun k => by simp [popped, Grid.state_setState]
  have pval : ∀ k, (popped s x).g.value k = s.g.value k := fun k => by simp [popped]
  have pheap : (popped s x).heap = [] := by show s.heap.erase x = []; rw [C.heap, if_pos hmM]; simp
  have pscr : (popped s x).g.scratch = s.g.scratch := rfl
  -- the cell behind the wave
  have back : 0 < x → FMM.relax cfg eikS (popped s x) (x - 1) = popped s x := by
    intro h0
    unfold FMM.relax
    rw [if_pos (Or.inl (by rw [pst, if_neg (by omega)]; exact C.fz _ (by omega)))]
  -- the cell in front of it
  have front : x + 1 < M → Cor M q g0 (x+1) (FMM.relax cfg eikS (popped s x) (x+1)) := by
    intro h1
    obtain ⟨e1, e2⟩ := eik (M := M) (d := d) (by omega) hM2 hd (j := x + 1) (by omega) h1 (a := x * q) hh hv hc (g := (popped s x).g)
      (hpm.shape.trans hs) (hpm.leaf.trans hl) (by rw [SameMap.vel_eq hpm]; exact hvel _ h1) (by
        show (popped s x).g.value x = _
        rw [pval, C.val x hmM, if_pos (le_refl _)])
      (by rw [pval, C.val _ h1, if_neg (by omega)]) (fun h2 => by rw [pval, C.val _ h2, if_neg (by omega)]) (fun h2 => by
        rw [pscr, C.scr (by omega) h1, pval, C.val _ h1, if_neg (by omega)])
    have hopn : (popped s x).g.state (x+1) = .opn := by rw [pst, if_neg (by omega)]; exact C.op _ (by omega) h1
    have hno : (popped s x).g.occ (x+1) = false := by rw [SameMap.occ_eq hpm]; exact hocc _ h1
    have hrel : FMM.relax cfg eikS (popped s x) (x+1) = { popped s x with
        g := ((applyHeur cfg ((popped s x).g.setScratch (eikS (popped s x).g (x+1)).2) (x+1)).setState (x+1) .narrow).setValue (x+1) (eikS (popped s x).g (x+1)).1
        heap := (x+1) :: (popped s x).heap } := by
      unfold FMM.relax
      rw [if_neg (by rw [hopn, hno]; simp)]
      dsimp only
      rw [if_neg (by rw [hopn]; simp)]
    refine ⟨by omega, hpm.trans (relax_sameMap cfg eikS _ _), ?_, ?_, ?_, ?_, ?_⟩
    · intro i hi
      rw [hrel]
      dsimp only
      rw [Grid.value_setValue]
      by_cases hix : i = x + 1
      · rw [if_pos hix, e1, hix, if_pos (le_refl _), ← hq]; congr 1; push_cast; ring
      · rw [if_neg hix, Grid.value_setState, applyHeur_value]
        show (popped s x).g.value i = _
        rw [pval, C.val i hi]
        by_cases hle : i ≤ x
        · rw [if_pos hle, if_pos (by omega)]
        · rw [if_neg hle, if_neg (by omega)]
    · intro i hi
      rw [relax_state, if_neg (by rintro ⟨hc1, _⟩; omega), pst]
      split
      · rfl
      · exact C.fz i (by omega)
    · intro i hi hiM
      rw [relax_state, if_neg (by rintro ⟨hc1, _⟩; omega), pst, if_neg (by omega)]
      exact C.op i (by omega) hiM
    · rw [hrel]; dsimp only; rw [pheap, if_pos h1]
    · intro _ h2
      rw [hrel]
      show (applyHeur cfg _ _).scratch.2 = _
      rw [applyHeur_scratch]
      exact e2 h2
  have hend : ¬ x + 1 < M → Cor M q g0 (x+1) (popped s x) := by
    intro h1
    refine ⟨by omega, hpm, ?_, ?_, ?_, by rw [pheap, if_neg h1], fun _ h2 => by omega⟩
    · intro i hi; rw [pval, C.val i hi, if_pos (by omega), if_pos (by omega)]
    · intro i hi; rw [pst]; split
      · rfl
      · exact C.fz i (by omega)
    · intro i hi hiM; omega
  have key : Cor M q g0 (x+1) ((s.g.shape.nbrs x).foldl (FMM.relax cfg eikS) (popped s x)) := by
    rw [hsh, nbrs (by omega) hM2 hd hmM, List.foldl_append]
    have e : (if 0 < x then [x-1] else []).foldl (FMM.relax cfg eikS) (popped s x) = popped s x := by
      split
      · next h0 => rw [List.foldl_cons, List.foldl_nil, back h0]
      · rfl
    rw [e]
    by_cases h1 : x + 1 < M
    · rw [if_pos h1]; exact front h1
    · rw [if_neg h1]; exact hend h1
  rw [expand_eq]
  exact ⟨key.le, key.map, key.val, key.fz, key.op, key.heap, key.scr⟩

theorem Cor.reach {h v : ℝ} (hM : 3 ≤ M) (hM2 : M < 2^31 + 1) (hd : 1 ≤ d) (hh : 0 < h) (hv : 0 < v) (hc : ((d + 1 : Nat) : ℝ) * eps^2 ≤ (h/v)^2)
    {g0 : Grid XR} (hs : g0.shape = Shape.mk' (dims M d)) (hl : g0.leaf = fin h) (hvel : ∀ i, i < M → g0.vel i = fin v) (hocc : ∀ i, i < M → g0.occ i = false)
    (hfr : Fresh g0) {cfg : Cfg XR} {n : Nat} {s : St XR} (hst : Steps (StepLib cfg) n (init cfg g0 [] [0]) s) :
    ∃ m, Cor M (h / v / Real.sqrt ((d + 1 : Nat) : ℝ)) g0 m s := by
  refine Steps.inv (r := StepLib cfg) (I := fun s => ∃ m, Cor M (h / v / Real.sqrt ((d + 1 : Nat) : ℝ)) g0 m s) ?_ hst ?_
  · rintro s t ⟨m, C⟩ ⟨_, x, hx, rfl⟩
    exact ⟨m + 1, C.step hM hM2 hd hh hv hc hs hl hvel hocc hx⟩
  · refine ⟨0, by omega, init_sameMap _ _ _ _, ?_, ?_, ?_, ?_, ?_⟩
    · intro i hi
      rw [init_value]
      by_cases h0 : i = 0
      · subst h0; simp; rfl
      · rw [if_neg (by simpa using h0), if_neg (by omega), hfr.value]; rfl
    · intro i hi; omega
    · intro i hi _; rw [init_state]; exact hfr.state i
    · rw [init_heap, if_pos (by omega)]; rfl
    · intro h1; omega

end Thin
open Thin

/-- **C108**, refutation: FMM, FMM*, SFMM and SFMM*, in exact arithmetic, on a corridor of `M` cells that is one cell thick in `d` further dimensions: whatever the cell size, the
speed, the order of the queue and the heuristic, a finished run leaves at every cell the distance divided by the speed *divided by the square root of `d + 1`*: in every dimension without
neighbours `getMinValueInDim` returns the minimum of the dimension before. -/
theorem C108_refuted_corridor (M d : Nat) (hM : 3 ≤ M) (hM2 : M ≤ 2^31) (hd : 1 ≤ d) (h v : ℝ) (hh : 0 < h) (hv : 0 < v) (hc : ((d + 1 : Nat) : ℝ) * eps^2 ≤ (h/v)^2)
    (g : Grid XR) (hs : g.shape = Shape.mk' (M :: List.replicate d 1)) (hl : g.leaf = fin h) (hvel : ∀ i, i < M → g.vel i = fin v) (hocc : ∀ i, i < M → g.occ i = false)
    (hfr : Fresh g) (cfg : Cfg XR) (n : Nat) (s : St XR) (hst : Steps (StepLib cfg) n (init cfg g [] [0]) s) (he : s.heap = []) (k : Nat) (hk : k < M) :
    s.g.value k = fin (k * h / v / Real.sqrt ((d + 1 : Nat) : ℝ)) := by
  obtain ⟨m, C⟩ := Cor.reach hM (by omega) hd hh hv hc hs hl hvel hocc hfr hst
  have hm : ¬ m < M := by
    intro hcon
    have := C.heap
    rw [if_pos hcon, he] at this; cases this
  rw [C.val k hk, if_pos (by omega)]
  congr 1; ring

/-- **C108**, what holds: the same corridor between walls (or between cells that are not faster), two cells thick in every dimension: the time of each of its cells is the distance divided by
the speed, up to the comparison margin, for every solver class of C28. -/
theorem C108_walled_partial (M d : Nat) {g : Grid XR} {h : ℝ} {v : Nat → ℝ} (X : XInput (M :: List.replicate d 2) g h v [0]) (hfr : Fresh g) (w : ℝ)
    (hfree : ∀ i, i < M → g.occ i = false ∧ v i = w) (hmax : ∀ i, i < (M :: List.replicate d 2).prod → g.occ i = false → v i ≤ w)
    (a : Grid XR) (ha : FinalGrid (M :: List.replicate d 2) g [0] a) (k : Nat) (hk : k < M) :
    ∃ t : ℝ, a.value k = fin t ∧ k * h / w ≤ t ∧ t ≤ k * h / w + (M :: List.replicate d 2).prod * (2 * eps) := by
  set ds := M :: List.replicate d 2 with hds
  have hprod : M ≤ ds.prod := by rw [hds, List.prod_cons, List.prod_replicate]; exact Nat.le_mul_of_pos_right _ (by positivity)
  have hw : 0 < w := by rw [← (hfree 0 (by omega)).2]; exact X.vpos (by omega) (hfree 0 (by omega)).1
  have hd0 : ∀ i, i < M → digit ds i 0 = i := fun i hi => by simp [digit, strideOf, hds, Nat.mod_eq_of_lt hi]
  have hdk : ∀ i, i < M → ∀ m, digit ds i (m+1) = 0 := by
    intro i hi m
    have : i / strideOf ds (m+1) = 0 := by
      apply Nat.div_eq_of_lt
      unfold strideOf
      rw [hds, List.take_succ_cons, List.prod_cons]
      have : 0 < (List.take m (List.replicate d 2)).prod := by rw [List.take_replicate, List.prod_replicate]; positivity
      exact lt_of_lt_of_le hi (Nat.le_mul_of_pos_right _ this)
    unfold digit; rw [this, Nat.zero_mod]
  -- along the corridor
  have hwalk : ∀ j, j < M → Walk ds g h v 0 j (j * h / w) := by
    intro j
    induction j with
    | zero => intro _; simpa using Walk.stay
    | succ j ih =>
      intro hj
      have hadj : j + 1 ∈ (Shape.mk' ds).nbrs j := by
        rw [mem_nbrs]
        refine ⟨0, by show 0 < ds.length; rw [hds]; simp, ?_⟩
        rw [mem_nbrsDim_iff X.fits (by omega) (by rw [hds]; simp)]
        right
        refine ⟨?_, by simp [strideOf]⟩
        rw [hd0 j (by omega)]; simpa [hds] using hj
      have := Walk.step (ih (by omega)) (show j + 1 < ds.prod by omega) ((axisAdjacent_iff X.fits (by omega)).1 hadj).2 (hfree _ hj).1
      rw [(hfree _ hj).2] at this
      have e : (j : ℝ) * h / w + h / w = ((j + 1 : Nat) : ℝ) * h / w := by push_cast; ring
      rwa [e] at this
  obtain ⟨t, ht, hle⟩ := C87_at_most_walk X hfr a ha 0 (by simp) k _ (hwalk k hk)
  refine ⟨t, ht, ?_, hle⟩
  rcases C66_lower_partial X hfr w hw hmax a ha k (by omega) with h1 | ⟨t', h1, h2⟩
  · rw [ht] at h1; cases h1
  · rw [ht] at h1; cases h1
    have he : (k : ℝ) ≤ euclid ((Shape.mk' ds).idx2coord k) ((Shape.mk' ds).idx2coord 0) := by
      rw [euclid_eq X.fits (by omega) (by omega)]
      apply Real.le_sqrt_of_sq_le
      have h3 := dk_sq_le (dims := ds) (i := k) (p := 0) (k := 0) (by rw [hds]; simp)
      unfold dk at h3
      rw [hd0 k hk, hd0 0 (by omega)] at h3
      simpa using h3
    refine le_trans ?_ h2
    apply div_le_div_of_nonneg_right _ hw.le
    rw [mul_comm]
    exact mul_le_mul_of_nonneg_left he X.hpos.le

/-- non-vacuity: the corridor of five cells of width and speed 1 declared as a 5 x 1 map: FMM ends, and its last cell gets 4 / √2 < 3 instead of 4; between walls (5 x 2 map) it is 4 -/
example : (∃ (n : Nat) (s : St XR), Steps (StepLib ⟨false, .none, fun _ => fin 0, 5⟩) n (init ⟨false, .none, fun _ => fin 0, 5⟩ (Grid.create [5,1] (fin 1) (0,0)) [] [0]) s ∧
      s.heap = [] ∧ ∃ t : ℝ, s.g.value 4 = fin t ∧ t < 3) ∧
    ∃ (n : Nat) (s : St XR), Steps (StepMin ⟨false, .none, fun _ => fin 0, 10⟩) n (init ⟨false, .none, fun _ => fin 0, 10⟩ (Grid.create [5,2] (fin 1) (0,0)) [] [0]) s ∧
      ∃ t : ℝ, s.g.value 4 = fin t ∧ 4 ≤ t := by
  have hocc : ∀ (ds : List Nat) i, (Grid.create ds (fin 1) (0,0)).occ i = false := by
    intro ds i
    show XR.lt (fin 1) (fin eps) = false
    unfold XR.lt XR.eps; norm_num
  have hfr : ∀ ds : List Nat, Fresh (Grid.create ds (fin 1) (0,0)) := fun ds => ⟨fun _ => rfl, fun _ => rfl, fun _ => rfl⟩
  constructor
  · have hin : Input [5,1] (Grid.create [5,1] (fin 1) (0,0)) [0] := ⟨⟨by decide, by decide, by decide⟩, rfl, by decide⟩
    obtain ⟨n, s, _, hs, hd⟩ := C13_FMM_terminates XR.ltLaws ⟨false, .none, fun _ => fin 0, 5⟩ rfl [5,1] _ [0] hin
    have he := C14_no_goal_ends_empty _ [5,1] _ [0] hin (by decide) n s (hs.mono (fun _ _ => StepMin.any)) hd
    have hl := hs.mono (fun _ _ => StepMin.lib)
    refine ⟨n, s, hl, he, _, C108_refuted_corridor 5 1 (by norm_num) (by norm_num) (le_refl _) 1 1 one_pos one_pos (by unfold eps; norm_num) _ rfl rfl (fun _ _ => rfl)
      (fun i _ => hocc _ i) (hfr _) _ n s hl he 4 (by norm_num), ?_⟩
    rw [div_lt_iff₀ (Real.sqrt_pos.2 (by norm_num))]
    have : (4:ℝ) / 3 < Real.sqrt ((1 + 1 : Nat) : ℝ) := Real.lt_sqrt_of_sq_lt (by norm_num)
    norm_num at this ⊢
    linarith
  · have X : XInput [5,2] (Grid.create [5,2] (fin 1) (0,0)) 1 (fun _ => 1) [0] :=
      ⟨⟨by decide, by decide, by decide⟩, by decide, rfl, by decide, one_pos, rfl, fun _ _ _ => rfl⟩
    have hin : Input [5,2] (Grid.create [5,2] (fin 1) (0,0)) [0] := ⟨X.fits, rfl, X.inside⟩
    obtain ⟨n, s, _, hs, hd⟩ := C13_FMM_terminates XR.ltLaws ⟨false, .none, fun _ => fin 0, 10⟩ rfl [5,2] _ [0] hin
    have he := C14_no_goal_ends_empty _ [5,2] _ [0] hin (by decide) n s (hs.mono (fun _ _ => StepMin.any)) hd
    have hap : StartsApart [5,2] (Grid.create [5,2] (fin 1) (0,0)) [0] := by
      intro p hp q hq _ hadj
      rw [List.mem_singleton] at hp hq; subst hp; subst hq
      obtain ⟨k, _, _, e, _⟩ := hadj
      omega
    obtain ⟨t, h1, h2, _⟩ := C108_walled_partial 5 1 X (hfr _) 1 (fun i _ => ⟨hocc _ i, rfl⟩) (fun _ _ _ => le_refl _) s.g (.fmm rfl hap hs he) 4 (by norm_num)
    refine ⟨n, s, hs, t, h1, ?_⟩
    norm_num at h2; exact h2
end FMV
