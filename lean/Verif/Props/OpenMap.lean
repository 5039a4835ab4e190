import Verif.Lemmas.Offsets
import Verif.Props.GMMTerm
/-!
# C75: on an open map arrival times depend only on the offsets from the start; travel times are reciprocal there, and not in general
-/
set_option linter.unusedSectionVars false
set_option linter.unusedVariables false
namespace FMV
open Spec Shape XR FMM Off

/-- coordinate `k` of cell `i` -/
def Spec.coordZ (dims : List Nat) (i k : Nat) : ℤ := (((Shape.mk' dims).idx2coord i).getD k 0 : ℕ)

/-- a map without obstacles and with the same speed everywhere -/
def Spec.Open (dims : List Nat) (g : Grid XR) (v : Nat → ℝ) (v0 : ℝ) : Prop := ∀ i, i < dims.prod → g.occ i = false ∧ v i = v0

variable {dims dims' : List Nat} {g g' : Grid XR} {h v0 : ℝ} {v v' : Nat → ℝ} {s s' : Nat}

namespace Off

theorem w_le {n : Nat} {c : ℝ} (hc : 0 < c) : ∀ (d : Nat) (x y : Nat → Nat), size n y = size n x + d → (∀ k, x k ≤ y k) → (∀ k, n ≤ k → x k = y k) → w n c x ≤ w n c y := by
  intro d
  induction d with
  | zero =>
    intro x y hd hxy hn
    have : x = y := by
      funext k
      by_cases hk : k < n
      · by_contra hne
        have hlt : x k < y k := lt_of_le_of_ne (hxy k) hne
        have : size n x < size n y := Finset.sum_lt_sum (fun j _ => hxy j) ⟨k, Finset.mem_range.2 hk, hlt⟩
        omega
      · exact hn k (by omega)
    rw [this]
  | succ d ih =>
    intro x y hd hxy hn
    have : ∃ k, k < n ∧ x k < y k := by
      by_contra hcon
      push Not at hcon
      have : size n x = size n y := Finset.sum_congr rfl (fun k hk => le_antisymm (hxy k) (hcon k (Finset.mem_range.1 hk)))
      omega
    obtain ⟨k, hk, hlt⟩ := this
    refine (w_mono hc _ x rfl k hk).trans (ih (up x k) y (by rw [size_up hk]; omega) ?_ ?_)
    · intro j
      unfold up
      by_cases hj : j = k
      · subst hj; rw [Function.update_self]; omega
      · rw [Function.update_of_ne hj]; exact hxy j
    · intro j hj
      unfold up
      rw [Function.update_of_ne (by omega)]; exact hn j hj

theorem off_coord (hf : Fits dims (2^31+1)) {s i k : Nat} (hi : i < dims.prod) (hs : s < dims.prod) (hk : k < dims.length) :
    (off dims s i k : ℤ) = |coordZ dims i k - coordZ dims s k| := by
  unfold coordZ
  rw [Spec.Moves.coord_digit hf hi hk, Spec.Moves.coord_digit hf hs hk, off_of_lt hk]
  rcases abs_cases ((digit dims i k : ℤ) - digit dims s k) with ⟨e, _⟩ | ⟨e, _⟩ <;> rw [e] <;> omega

/-- the exact time on an open map -/
theorem exact_open (X : XInput dims g h v [s]) (ho : Open dims g v v0) {U : Nat → WithTop ℝ} (hU : X.problem.IsSolution U) {i : Nat} (hi : i < dims.prod) :
    0 < h / v0 ∧ U i = ((w dims.length (h / v0) (off dims s i) : ℝ) : WithTop ℝ) := by
  have hs : s < dims.prod := X.inside s (by simp)
  have hc0 : 0 < h / v0 := by
    have := X.cpos hs (ho s hs).1
    rw [(ho s hs).2] at this; exact this
  refine ⟨hc0, ?_⟩
  have E := exSol X.fits hc0 hs (cc := fun i => h / v i) (src := fun i => i ∈ [s]) (obs := fun i => g.occ i = true) (fun i hi => by rw [(ho i hi).2]) (fun i => by simp)
    (fun i hi => by rw [(ho i hi).1]; simp)
  have hc : ∀ j, j < dims.prod → ¬ j ∈ [s] → ¬ (g.occ j = true) → 0 < h / v j := fun j hj _ hoc => X.cpos hj (by simpa using hoc)
  exact le_antisymm (ExSol.le X.fits hc (X.exSol hU) E i hi) (ExSol.le X.fits hc E (X.exSol hU) i hi)

/-- the exact times on open maps grow with the offsets -/
theorem exact_offsets (X : XInput dims g h v [s]) (X' : XInput dims' g' h v' [s']) (hlen : dims'.length = dims.length)
    (ho : Open dims g v v0) (ho' : Open dims' g' v' v0) (i i' : Nat) (hi : i < dims.prod)
    (hi' : i' < dims'.prod) (hoff : ∀ k, k < dims.length → |coordZ dims i k - coordZ dims s k| ≤ |coordZ dims' i' k - coordZ dims' s' k|) {U V : Nat → WithTop ℝ}
    (hU : X.problem.IsSolution U) (hV : X'.problem.IsSolution V) : U i ≤ V i' := by
  have hs : s < dims.prod := X.inside s (by simp)
  have hs' : s' < dims'.prod := X'.inside s' (by simp)
  obtain ⟨hc, eU⟩ := exact_open X ho hU hi
  obtain ⟨_, eV⟩ := exact_open X' ho' hV hi'
  rw [hlen] at eV
  have hle : ∀ k, off dims s i k ≤ off dims' s' i' k := by
    intro k
    by_cases hk : k < dims.length
    · have := hoff k hk
      rw [← off_coord X.fits hi hs hk, ← off_coord X'.fits hi' hs' (by rw [hlen]; exact hk)] at this
      exact_mod_cast this
    · unfold off; rw [if_neg hk]; exact Nat.zero_le _
  have hw : w dims.length (h / v0) (off dims s i) ≤ w dims.length (h / v0) (off dims' s' i') := by
    refine w_le hc (size dims.length (off dims' s' i') - size dims.length (off dims s i)) _ _ ?_ hle ?_
    · have : size dims.length (off dims s i) ≤ size dims.length (off dims' s' i') := Finset.sum_le_sum (fun k _ => hle k)
      omega
    · intro k hk
      unfold off
      rw [if_neg (by omega), if_neg (by omega)]
  rw [eU, eV]
  exact WithTop.coe_le_coe.2 hw

end Off

/-- **C75**: on open maps (no obstacles, one speed, one start; the maps may have different sizes) the arrival time of a cell depends only on its offsets from the start, and
grows with them: if the offsets of cell `i` on the first map are at most those of cell `i'` on the second, then the time of `i` is at most that of `i'`, up to
`2*COMP_MARGIN` per cell; any of FMM, FSM, LSM, DDQM and FIM on either map. -/
theorem C75_offsets (X : XInput dims g h v [s]) (X' : XInput dims' g' h v' [s']) (hfr : Fresh g) (hfr' : Fresh g') (hlen : dims'.length = dims.length)
    (ho : Open dims g v v0) (ho' : Open dims' g' v' v0) (a b : Grid XR) (ha : FinalGrid dims g [s] a) (hb : FinalGrid dims' g' [s'] b) (i i' : Nat) (hi : i < dims.prod)
    (hi' : i' < dims'.prod) (hoff : ∀ k, k < dims.length → |coordZ dims i k - coordZ dims s k| ≤ |coordZ dims' i' k - coordZ dims' s' k|) :
    ∃ r r' : ℝ, a.value i = fin r ∧ b.value i' = fin r' ∧ r ≤ r' + dims.prod * (2 * eps) := by
  obtain ⟨U, hU, _⟩ := C17_unique_solution X.problem X.wellPosed
  obtain ⟨V, hV, _⟩ := C17_unique_solution X'.problem X'.wellPosed
  have hw := exact_offsets X X' hlen ho ho' i i' hi hi' hoff hU hV
  obtain ⟨hc, eU⟩ := exact_open X ho hU hi
  obtain ⟨_, eV⟩ := exact_open X' ho' hV hi'
  rcases ha.exact X hfr hU hi with ⟨h0, h1⟩ | ⟨e, r, e1, e2, e3, e4⟩
  · rw [eU] at h0; exact absurd h0 WithTop.coe_ne_top
  rcases hb.exact X' hfr' hV hi' with ⟨h2, h3⟩ | ⟨e', r', f1, f2, f3, f4⟩
  · rw [eV] at h2; exact absurd h2 WithTop.coe_ne_top
  rw [e1, f1] at hw
  have hw := WithTop.coe_le_coe.1 hw
  exact ⟨r, r', e2, f2, by linarith⟩

/-- **C75**, reciprocity: on an open map travelling from `s` to `t` takes as long as from `t` to `s`, up to `2*COMP_MARGIN` per cell, whichever solvers computed the two. -/
theorem C75_reciprocal {t : Nat} (X : XInput dims g h v [s]) (X' : XInput dims g h v [t]) (hfr : Fresh g) (ho : Open dims g v v0) (a b : Grid XR)
    (ha : FinalGrid dims g [s] a) (hb : FinalGrid dims g [t] b) :
    ∃ r r' : ℝ, a.value t = fin r ∧ b.value s = fin r' ∧ |r - r'| ≤ dims.prod * (2 * eps) := by
  have hs : s < dims.prod := X.inside s (by simp)
  have ht : t < dims.prod := X'.inside t (by simp)
  obtain ⟨r, r', h1, h2, h3⟩ := C75_offsets X X' hfr hfr rfl ho ho a b ha hb t s ht hs (fun k _ => by rw [abs_sub_comm])
  obtain ⟨q', q, k1, k2, k3⟩ := C75_offsets X' X hfr hfr rfl ho ho b a hb ha s t hs ht (fun k _ => by rw [abs_sub_comm])
  rw [h2] at k1
  rw [h1] at k2
  have e1 : r' = q' := by injection k1
  have e2 : r = q := by injection k2
  subst e1 e2
  exact ⟨r, r', h1, h2, abs_le.2 ⟨by linarith, by linarith⟩⟩

/-- non-vacuity: the empty 3x3 map; start 0 and start 8 -/
example : ∃ (g : Grid XR), XInput [3,3] g 1 (fun _ => 1) [0] ∧ XInput [3,3] g 1 (fun _ => 1) [8] ∧ Fresh g ∧ Open [3,3] g (fun _ => 1) 1 ∧
    (∃ a, FinalGrid [3,3] g [0] a) ∧ ∃ b, FinalGrid [3,3] g [8] b := by
  have X : XInput [3,3] (Grid.create [3,3] (fin 1) (0,0)) 1 (fun _ => 1) [0] :=
    ⟨⟨by decide, by decide, by decide⟩, by decide, rfl, by decide, one_pos, rfl, fun _ _ _ => rfl⟩
  have X' : XInput [3,3] (Grid.create [3,3] (fin 1) (0,0)) 1 (fun _ => 1) [8] :=
    ⟨⟨by decide, by decide, by decide⟩, by decide, rfl, by decide, one_pos, rfl, fun _ _ _ => rfl⟩
  have hfr : Fresh (Grid.create (F := XR) [3,3] (fin 1) (0,0)) := ⟨fun _ => rfl, fun _ => rfl, fun _ => rfl⟩
  obtain ⟨⟨n, s, hs, hd⟩, _⟩ := C27_DDQM_exact X hfr noGoal (fin 1) (fin 1)
  obtain ⟨⟨n', s', hs', hd'⟩, _⟩ := C27_DDQM_exact X' hfr noGoal (fin 1) (fin 1)
  refine ⟨_, X, X', hfr, ?_, ⟨s.g, .ddqm (by decide) hs hd⟩, s'.g, .ddqm (by decide) hs' hd'⟩
  intro i _
  have e : eps < 1 := by unfold XR.eps; norm_num
  exact ⟨by show decide ((1:ℝ) < eps) = false; exact decide_eq_false (not_lt.2 e.le), rfl⟩

open GMM in
/-- **Reciprocity is false in general**: on the 2x2 map with unit cells where cell 3 has speed 1/10 and the others speed 1, every solver gives at least 7 for the way from cell 1
to cell 3, and at most 2 for the way back. -/
theorem C75_refuted_reciprocal : ∃ (g : Grid XR) (v : Nat → ℝ) (_ : XInput [2,2] g 1 v [1]) (_ : XInput [2,2] g 1 v [3]), Fresh g ∧ (∀ i, i < 4 → g.occ i = false) ∧
    (∃ a, FinalGrid [2,2] g [1] a) ∧ (∃ b, FinalGrid [2,2] g [3] b) ∧
    (∀ a, FinalGrid [2,2] g [1] a → ∃ r : ℝ, a.value 3 = fin r ∧ 7 ≤ r) ∧ ∀ b, FinalGrid [2,2] g [3] b → ∃ r : ℝ, b.value 1 = fin r ∧ r ≤ 2 := by
  have X : XInput [2,2] ex10 1 (fun i => if i = 3 then 1/10 else 1) [1] :=
    ⟨ex10_input.fits, ex10_input.two, ex10_input.shape, by decide, ex10_input.hpos, ex10_input.leaf, ex10_input.speed⟩
  have X' : XInput [2,2] ex10 1 (fun i => if i = 3 then 1/10 else 1) [3] :=
    ⟨ex10_input.fits, ex10_input.two, ex10_input.shape, by decide, ex10_input.hpos, ex10_input.leaf, ex10_input.speed⟩
  obtain ⟨⟨n, s, hs, hd⟩, _⟩ := C27_DDQM_exact X ex10_fresh noGoal (fin 1) (fin 1)
  obtain ⟨⟨n', s', hs', hd'⟩, _⟩ := C27_DDQM_exact X' ex10_fresh noGoal (fin 1) (fin 1)
  have e0 : (1:ℝ) < 1 / eps ∧ eps < 1/10 ∧ 0 < eps := by unfold XR.eps; norm_num
  have hocc : ∀ i, i < 4 → ex10.occ i = false := by
    intro i _
    show Arith.lt (if i = 3 then fin (1/10) else fin 1) _ = false
    split
    · show decide ((1/10:ℝ) < eps) = false; exact decide_eq_false (not_lt.2 e0.2.1.le)
    · show decide ((1:ℝ) < eps) = false; exact decide_eq_false (not_lt.2 (by linarith [e0.2.1]))
  refine ⟨_, _, X, X', ex10_fresh, hocc, ⟨s.g, .ddqm (by decide) hs hd⟩, ⟨s'.g, .ddqm (by decide) hs' hd'⟩, ?_, ?_⟩
  · intro a ha
    obtain ⟨U, hU, hU0, _⟩ := C17_unique_solution X.problem X.wellPosed
    have E := X.exSol hU
    obtain ⟨_, _, h3⟩ := E 3 (by decide)
    obtain ⟨h1, _, _⟩ := E 1 (by decide)
    have m1 : dimMin (Shape.mk' [2,2]) U 3 1 ≤ 0 := le_trans (dimMin_le (j := 1) (by decide)) (by rw [h1 (by simp)])
    have nn : ∀ j, j < 4 → 0 ≤ U j := fun j hj => hU0 j hj
    have hn : ∀ k, k < 2 → 0 ≤ dimMin (Shape.mk' [2,2]) U 3 k := fun k hk => le_dimMin (fun j hj => nn j (nbrsDim_lt X.fits (by decide) hk hj))
    rcases h3 (by simp) (by show ¬ (ex10.occ 3 = true); rw [hocc 3 (by norm_num)]; simp) with ⟨r, e1, e2⟩ | ⟨e1, e2⟩
    · have e2' : (1 / (if (3:Nat) = 3 then (1/10 : ℝ) else 1))^2 = ∑ k ∈ Finset.range 2, posSq r (dimMin (Shape.mk' [2,2]) U 3 k) := by
        rw [← e2, residL_mins]; rfl
      rw [Finset.sum_range_succ, Finset.sum_range_one, if_pos rfl] at e2'
      have r0 : 0 ≤ r := by
        have := nn 3 (by norm_num)
        rw [e1] at this; exact_mod_cast this
      have q : ∀ k, k < 2 → posSq r (dimMin (Shape.mk' [2,2]) U 3 k) ≤ r^2 := by
        intro k hk
        refine (posSq_anti r (hn k hk)).trans ?_
        show posSq r ((0:ℝ) : WithTop ℝ) ≤ _
        rw [posSq_coe, sub_zero, max_eq_left r0]
      have : (100:ℝ) ≤ 2 * r^2 := by
        have h := q 0 (by norm_num)
        have h' := q 1 (by norm_num)
        norm_num at e2'
        linarith
      have r7 : 7 ≤ r := by nlinarith
      rcases ha.exact X ex10_fresh hU (i := 3) (by decide) with ⟨h0, _⟩ | ⟨e, t, f1, f2, f3, f4⟩
      · rw [h0] at e1; exact absurd e1 WithTop.top_ne_coe
      · rw [e1] at f1
        have : r = e := WithTop.coe_injective f1
        exact ⟨t, f2, by linarith⟩
    · have := e2 (dimMin (Shape.mk' [2,2]) U 3 1) (List.mem_map.2 ⟨1, by decide, rfl⟩)
      rw [this] at m1
      exact absurd (top_le_iff.1 m1) (by simp)
  · intro b hb
    obtain ⟨U, hU, hU0, _⟩ := C17_unique_solution X'.problem X'.wellPosed
    have E := X'.exSol hU
    obtain ⟨_, _, h3⟩ := E 1 (by decide)
    obtain ⟨h1, _, _⟩ := E 3 (by decide)
    have m1 : dimMin (Shape.mk' [2,2]) U 1 1 ≤ ((0:ℝ) : WithTop ℝ) := le_trans (dimMin_le (j := 3) (by decide)) (by rw [h1 (by simp)]; rfl)
    rcases h3 (by simp) (by show ¬ (ex10.occ 1 = true); rw [hocc 1 (by norm_num)]; simp) with ⟨r, e1, e2⟩ | ⟨e1, e2⟩
    · have e2' : (1 / (if (1:Nat) = 3 then (1/10 : ℝ) else 1))^2 = ∑ k ∈ Finset.range 2, posSq r (dimMin (Shape.mk' [2,2]) U 1 k) := by
        rw [← e2, residL_mins]; rfl
      rw [Finset.sum_range_succ, Finset.sum_range_one, if_neg (by norm_num)] at e2'
      have q := posSq_anti r m1
      rw [posSq_coe, sub_zero] at q
      have q0 := posSq_nonneg r (dimMin (Shape.mk' [2,2]) U 1 0)
      have r1 : r ≤ 1 := by
        by_contra hc
        push Not at hc
        rw [max_eq_left (by linarith)] at q
        norm_num at e2'
        nlinarith
      rcases hb.exact X' ex10_fresh hU (i := 1) (by decide) with ⟨h0, _⟩ | ⟨e, t, f1, f2, f3, f4⟩
      · rw [h0] at e1; exact absurd e1 WithTop.top_ne_coe
      · rw [e1] at f1
        have : r = e := WithTop.coe_injective f1
        have e4 : (([2,2] : List Nat).prod : ℝ) = 4 := by norm_num
        rw [e4] at f4
        exact ⟨t, f2, by linarith [e0.2.1]⟩
    · have := e2 (dimMin (Shape.mk' [2,2]) U 1 1) (List.mem_map.2 ⟨1, by decide, rfl⟩)
      rw [this] at m1
      exact absurd (top_le_iff.1 m1) (by simp)
end FMV
