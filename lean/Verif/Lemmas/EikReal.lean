import Verif.Model.Eikonal
import Verif.Model.XR
import Mathlib.Algebra.Order.BigOperators.Group.List
import Mathlib.Algebra.BigOperators.Ring.List
import Mathlib.Data.List.Sort
import Mathlib.Tactic.Linarith
import Mathlib.Tactic.Ring
import Mathlib.Tactic.Positivity
import Mathlib.Tactic.FieldSimp
import Mathlib.Analysis.Real.Sqrt
/-! Real-number analysis of the update loop of `solveEikonal`. -/
set_option linter.unusedSectionVars false
set_option linter.unusedVariables false
set_option linter.unusedSimpArgs false
namespace FMV
open XR

/-- sum of squared differences -/
noncomputable def sqs (u : ℝ) (l : List ℝ) : ℝ := (l.map (fun t => (u - t)^2)).sum

@[simp] theorem sqs_nil (u : ℝ) : sqs u [] = 0 := rfl
@[simp] theorem sqs_cons (u t : ℝ) (l : List ℝ) : sqs u (t :: l) = (u - t)^2 + sqs u l := by simp [sqs]
theorem sqs_append (u : ℝ) (l l' : List ℝ) : sqs u (l ++ l') = sqs u l + sqs u l' := by simp [sqs]
theorem sqs_nonneg (u : ℝ) (l : List ℝ) : 0 ≤ sqs u l := by
  induction l with
  | nil => simp
  | cons t l ih => rw [sqs_cons]; positivity

theorem sqs_expand (u : ℝ) (l : List ℝ) :
    sqs u l = l.length * u^2 - 2 * l.sum * u + (l.map (fun t => t^2)).sum := by
  induction l with
  | nil => simp
  | cons t l ih => rw [sqs_cons, ih]; simp; ring

/-- real mirror of `solveND` for `dim >= 1` -/
noncomputable def ndR (c : ℝ) (l : List ℝ) : ℝ :=
  (2 * l.sum + Real.sqrt ((2 * l.sum)^2 - 4 * l.length * ((l.map (fun t => t^2)).sum - c^2))) / (2 * l.length)

theorem disc_eq (c x : ℝ) (l : List ℝ) :
    (2 * l.sum)^2 - 4 * l.length * ((l.map (fun t => t^2)).sum - c^2) =
      (2 * (l.length * x - l.sum))^2 - 4 * l.length * (sqs x l - c^2) := by
  rw [sqs_expand]; ring

theorem ndR_spec {c : ℝ} {l : List ℝ} (hl : l ≠ []) {x : ℝ} (hx : ∀ t ∈ l, t ≤ x) (hs : sqs x l ≤ c^2) :
    0 ≤ (2 * l.sum)^2 - 4 * l.length * ((l.map (fun t => t^2)).sum - c^2) ∧
    x ≤ ndR c l ∧ sqs (ndR c l) l = c^2 := by
  have hn : (0:ℝ) < l.length := by
    have := List.length_pos_iff.2 hl; exact_mod_cast this
  have hd : 0 ≤ (2 * l.sum)^2 - 4 * l.length * ((l.map (fun t => t^2)).sum - c^2) := by
    rw [disc_eq c x l]
    nlinarith [sq_nonneg (2 * (l.length * x - l.sum)), mul_nonneg hn.le (sub_nonneg.2 hs)]
  refine ⟨hd, ?_, ?_⟩
  · unfold ndR
    rw [le_div_iff₀ (by positivity)]
    have hsum : l.sum ≤ l.length * x := by
      have := List.sum_le_card_nsmul l x hx
      simpa using this
    have : 2 * (l.length * x - l.sum) ≤ Real.sqrt ((2 * l.sum)^2 - 4 * l.length * ((l.map (fun t => t^2)).sum - c^2)) := by
      apply Real.le_sqrt_of_sq_le
      rw [disc_eq c x l]
      nlinarith [mul_nonneg hn.le (sub_nonneg.2 hs)]
    linarith
  · rw [sqs_expand]
    unfold ndR
    set s := Real.sqrt ((2 * l.sum)^2 - 4 * l.length * ((l.map (fun t => t^2)).sum - c^2)) with hsdef
    have hss : s^2 = (2 * l.sum)^2 - 4 * l.length * ((l.map (fun t => t^2)).sum - c^2) := Real.sq_sqrt hd
    field_simp
    nlinarith [hss]

theorem ndR_one {c : ℝ} (hc : 0 ≤ c) (t : ℝ) : ndR c [t] = t + c := by
  unfold ndR
  have : (2 * [t].sum)^2 - 4 * ([t].length : ℝ) * (([t].map (fun t => t^2)).sum - c^2) = (2*c)^2 := by simp; ring
  rw [this, Real.sqrt_sq (by positivity)]
  simp; ring

/-! ### XR computations reduce to reals -/

theorem foldl_add_fin (l : List ℝ) (a : ℝ) :
    (l.map fin).foldl (fun s t => Arith.add s t) (fin a) = fin (a + l.sum) := by
  induction l generalizing a with
  | nil => simp
  | cons x l ih =>
    rw [List.map_cons, List.foldl_cons]
    show List.foldl (fun s t => Arith.add s t) (fin (a + x)) (l.map fin) = _
    rw [ih, List.sum_cons]; congr 1; ring

theorem foldl_addsq_fin (l : List ℝ) (a : ℝ) :
    (l.map fin).foldl (fun s t => Arith.add s (Arith.mul t t)) (fin a) = fin (a + (l.map (fun t => t^2)).sum) := by
  induction l generalizing a with
  | nil => simp
  | cons x l ih =>
    rw [List.map_cons, List.foldl_cons]
    show List.foldl (fun s t => Arith.add s (Arith.mul t t)) (fin (a + x * x)) (l.map fin) = _
    rw [ih, List.map_cons, List.sum_cons]; congr 1; ring

theorem solveND_fin {h v : ℝ} (hh : 0 < h) (hv : 0 < v) {ts : List ℝ} {i : Nat} (hi1 : 1 ≤ i)
    (hi : i ≤ ts.length)
    (hd : 0 ≤ (2 * (ts.take i).sum)^2 - 4 * (ts.take i).length * (((ts.take i).map (fun t => t^2)).sum - (h/v)^2)) :
    solveND (fin h) (fin v) (ts.map fin) i = fin (ndR (h/v) (ts.take i)) := by
  have hlen : (ts.take i).length = i := by simp [hi]
  unfold solveND
  split
  · next h1 =>
    subst h1
    cases ts with
    | nil => simp at hi
    | cons t ts =>
      simp only [List.map_cons, List.headD_cons, List.take_succ_cons, List.take_zero]
      rw [ndR_one (by positivity)]
      show XR.add (fin t) (XR.div (fin h) (fin v)) = _
      simp [XR.div, XR.add, hv.ne']
  · next h1 =>
    simp only
    rw [← List.map_take]
    have e1 := foldl_add_fin (ts.take i) 0
    have e2 := foldl_addsq_fin (ts.take i) 0
    rw [zero_add] at e1 e2
    show (if Arith.lt (Arith.sub (Arith.mul (Arith.mul (Arith.ofRat (-2) 1) (List.foldl (fun s t => Arith.add s t) (fin 0) (List.map fin (List.take i ts)))) (Arith.mul (Arith.ofRat (-2) 1) (List.foldl (fun s t => Arith.add s t) (fin 0) (List.map fin (List.take i ts))))) (Arith.mul (Arith.mul (Arith.ofRat 4 1) (Arith.ofNat i)) (Arith.sub (List.foldl (fun s t => Arith.add s (Arith.mul t t)) (fin 0) (List.map fin (List.take i ts))) (Arith.div (Arith.mul (fin h) (fin h)) (Arith.mul (fin v) (fin v)))))) Arith.zero = true then _ else Arith.div (Arith.add (Arith.neg (Arith.mul (Arith.ofRat (-2) 1) (List.foldl (fun s t => Arith.add s t) (fin 0) (List.map fin (List.take i ts))))) (Arith.sqrt (Arith.sub (Arith.mul (Arith.mul (Arith.ofRat (-2) 1) (List.foldl (fun s t => Arith.add s t) (fin 0) (List.map fin (List.take i ts)))) (Arith.mul (Arith.ofRat (-2) 1) (List.foldl (fun s t => Arith.add s t) (fin 0) (List.map fin (List.take i ts))))) (Arith.mul (Arith.mul (Arith.ofRat 4 1) (Arith.ofNat i)) (Arith.sub (List.foldl (fun s t => Arith.add s (Arith.mul t t)) (fin 0) (List.map fin (List.take i ts))) (Arith.div (Arith.mul (fin h) (fin h)) (Arith.mul (fin v) (fin v)))))))) (Arith.mul (Arith.ofRat 2 1) (Arith.ofNat i))) = _
    rw [e1, e2]
    set S := (ts.take i).sum
    set Q := ((ts.take i).map (fun t => t^2)).sum
    have hvv : v * v ≠ 0 := by positivity
    have hi0 : (0:ℝ) < i := by exact_mod_cast (show 0 < i by omega)
    have hdiv : (Arith.div (Arith.mul (fin h) (fin h)) (Arith.mul (fin v) (fin v)) : XR) = fin ((h/v)^2) := by
      show XR.div (XR.mul (fin h) (fin h)) (XR.mul (fin v) (fin v)) = _
      simp only [XR.mul, XR.div, hvv, if_false]
      congr 1; field_simp
    rw [hdiv]
    have hquad : (Arith.sub (Arith.mul (Arith.mul (Arith.ofRat (-2) 1) (fin S)) (Arith.mul (Arith.ofRat (-2) 1) (fin S)))
        (Arith.mul (Arith.mul (Arith.ofRat 4 1) (Arith.ofNat i)) (Arith.sub (fin Q) (fin ((h/v)^2)))) : XR) =
        fin ((2*S)^2 - 4 * (ts.take i).length * (Q - (h/v)^2)) := by
      show XR.add (XR.mul (XR.mul (fin _) (fin S)) (XR.mul (fin _) (fin S))) (XR.neg (XR.mul (XR.mul (fin _) (fin _)) (XR.add (fin Q) (XR.neg (fin ((h/v)^2)))))) = _
      simp only [XR.mul, XR.add, XR.neg, hlen]
      congr 1; push_cast; ring
    rw [hquad]
    have hnlt : Arith.lt (fin ((2*S)^2 - 4 * (ts.take i).length * (Q - (h/v)^2))) (Arith.zero : XR) = false := by
      show XR.lt (fin _) (fin 0) = false
      simp only [XR.lt, decide_eq_false_iff_not, not_lt]; exact hd
    rw [hnlt]
    simp only [Bool.false_eq_true, if_false]
    show XR.div (XR.add (XR.neg (XR.mul (fin _) (fin S))) (XR.sqrt (fin _))) (XR.mul (fin _) (fin _)) = _
    have h2i : ((2:ℤ):ℝ) / ((1:ℕ):ℝ) * (((i:ℤ):ℝ) / ((1:ℕ):ℝ)) ≠ 0 := by push_cast; positivity
    simp only [XR.mul, XR.neg, XR.sqrt, not_lt.2 hd, if_false, XR.add, XR.div, h2i]
    congr 1
    unfold ndR
    rw [hlen]; push_cast
    congr 1
    · ring
    · ring

/-- real mirror of `eikLoop`; the list is split into the part already used and the rest -/
noncomputable def loopR (c : ℝ) : List ℝ → List ℝ → ℝ
  | pre, [] => ndR c pre
  | pre, t :: rest => open Classical in
      if ndR c pre - t < eps then ndR c pre else loopR c (pre ++ [t]) rest

theorem eikLoop_fin {h v : ℝ} (hh : 0 < h) (hv : 0 < v) :
    ∀ (rest pre : List ℝ), pre ≠ [] → (pre ++ rest).Pairwise (· ≤ ·) →
      (∀ x, pre.getLast? = some x → sqs x pre ≤ (h/v)^2) →
      eikLoop (fin h) (fin v) ((pre ++ rest).map fin) pre.length rest.length = fin (loopR (h/v) pre rest) := by
  intro rest
  induction rest with
  | nil =>
    intro pre hp hs hx
    obtain ⟨x, hlast⟩ : ∃ x, pre.getLast? = some x := by
      rw [← Option.isSome_iff_exists]; simpa using hp
    have hle : ∀ t ∈ pre, t ≤ x := by
      intro t ht
      rw [List.append_nil] at hs
      rw [List.getLast?_eq_some_iff] at hlast
      obtain ⟨ys, rfl⟩ := hlast
      rcases List.mem_append.1 ht with h1 | h1
      · exact (List.pairwise_append.1 hs).2.2 t h1 x (by simp)
      · simp at h1; rw [h1]
    have sp := ndR_spec hp hle (hx x hlast)
    simp only [List.append_nil, List.length_nil, eikLoop, loopR]
    have := solveND_fin hh hv (ts := pre) (i := pre.length) (List.length_pos_iff.2 hp) (le_refl _)
      (by rw [List.take_length]; exact sp.1)
    rw [this, List.take_length]
  | cons t rest ih =>
    intro pre hp hs hx
    obtain ⟨x, hlast⟩ : ∃ x, pre.getLast? = some x := by
      rw [← Option.isSome_iff_exists]; simpa using hp
    have hs' := List.pairwise_append.1 hs
    have hle : ∀ s ∈ pre, s ≤ x := by
      intro s hs1
      have hs2 := hs'.1
      rw [List.getLast?_eq_some_iff] at hlast
      obtain ⟨ys, rfl⟩ := hlast
      rcases List.mem_append.1 hs1 with h1 | h1
      · exact (List.pairwise_append.1 hs2).2.2 s h1 x (by simp)
      · simp at h1; rw [h1]
    have sp := ndR_spec hp hle (hx x hlast)
    simp only [List.length_cons, eikLoop, loopR]
    have h1 := solveND_fin hh hv (ts := pre ++ t :: rest) (i := pre.length) (List.length_pos_iff.2 hp) (by simp)
      (by rw [List.take_left]; exact sp.1)
    rw [h1, List.take_left]
    have hget : ((pre ++ t :: rest).map fin).getD pre.length Arith.zero = fin t := by
      rw [List.getD_eq_getElem?_getD, List.getElem?_map, List.getElem?_append_right (le_refl _)]
      simp
    rw [hget]
    have hcond : Arith.lt (Arith.sub (fin (ndR (h/v) pre)) (fin t)) (Arith.margin : XR) = decide (ndR (h/v) pre - t < eps) := by
      show XR.lt (XR.add (fin _) (XR.neg (fin t))) (fin eps) = _
      simp only [XR.neg, XR.add, XR.lt, sub_eq_add_neg]
    rw [hcond]
    by_cases hc : ndR (h/v) pre - t < eps
    · simp [hc]
    · simp only [hc, decide_false, Bool.false_eq_true, if_false]
      have hge : t ≤ ndR (h/v) pre := by have := eps_pos; linarith
      have := ih (pre ++ [t]) (by simp) (by simpa using hs) (by
        intro y hy
        rw [List.getLast?_append] at hy
        simp at hy
        subst hy
        rw [sqs_append]
        simp only [sqs_cons, sub_self, sqs_nil]
        have : sqs t pre ≤ sqs (ndR (h/v) pre) pre := by
          unfold sqs
          apply List.sum_le_sum
          intro s hs1
          have h2 : s ≤ t := hs'.2.2 s hs1 t (by simp)
          nlinarith
        rw [sp.2.2] at this
        linarith)
      simpa using this

/-- outcome of the loop on a sorted list -/
theorem loopR_spec {c : ℝ} :
    ∀ (rest pre : List ℝ), pre ≠ [] → (pre ++ rest).Pairwise (· ≤ ·) →
      (∀ x, pre.getLast? = some x → sqs x pre ≤ c^2) →
      ∃ used unused, pre ++ rest = used ++ unused ∧ (∃ more, used = pre ++ more) ∧
        sqs (loopR c pre rest) used = c^2 ∧ (∀ t ∈ used, t ≤ loopR c pre rest) ∧
        (∀ t ∈ unused, loopR c pre rest - eps < t) := by
  intro rest
  induction rest with
  | nil =>
    intro pre hp hs hx
    obtain ⟨x, hlast⟩ : ∃ x, pre.getLast? = some x := by
      rw [← Option.isSome_iff_exists]; simpa using hp
    have hle : ∀ t ∈ pre, t ≤ x := by
      intro t ht
      rw [List.append_nil] at hs
      rw [List.getLast?_eq_some_iff] at hlast
      obtain ⟨ys, rfl⟩ := hlast
      rcases List.mem_append.1 ht with h1 | h1
      · exact (List.pairwise_append.1 hs).2.2 t h1 x (by simp)
      · simp at h1; rw [h1]
    have sp := ndR_spec hp hle (hx x hlast)
    refine ⟨pre, [], by simp, ⟨[], by simp⟩, ?_, ?_, by simp⟩
    · exact sp.2.2
    · intro t ht; exact le_trans (hle t ht) sp.2.1
  | cons t rest ih =>
    intro pre hp hs hx
    obtain ⟨x, hlast⟩ : ∃ x, pre.getLast? = some x := by
      rw [← Option.isSome_iff_exists]; simpa using hp
    have hs' := List.pairwise_append.1 hs
    have hle : ∀ s ∈ pre, s ≤ x := by
      intro s hs1
      have hs2 := hs'.1
      rw [List.getLast?_eq_some_iff] at hlast
      obtain ⟨ys, rfl⟩ := hlast
      rcases List.mem_append.1 hs1 with h1 | h1
      · exact (List.pairwise_append.1 hs2).2.2 s h1 x (by simp)
      · simp at h1; rw [h1]
    have sp := ndR_spec hp hle (hx x hlast)
    unfold loopR
    by_cases hc : ndR c pre - t < eps
    · rw [if_pos hc]
      refine ⟨pre, t :: rest, rfl, ⟨[], by simp⟩, sp.2.2, fun s h1 => le_trans (hle s h1) sp.2.1, ?_⟩
      intro s hs1
      rcases List.mem_cons.1 hs1 with rfl | hs1
      · linarith
      · have : t ≤ s := (List.pairwise_cons.1 hs'.2.1).1 s hs1
        linarith
    · rw [if_neg hc]
      have hge : t ≤ ndR c pre := by have := eps_pos; linarith
      obtain ⟨used, unused, h1, ⟨more, h2⟩, h3⟩ := ih (pre ++ [t]) (by simp) (by simpa using hs) (by
        intro y hy
        rw [List.getLast?_append] at hy
        simp at hy
        subst hy
        rw [sqs_append]
        simp only [sqs_cons, sub_self, sqs_nil]
        have : sqs t pre ≤ sqs (ndR c pre) pre := by
          unfold sqs
          apply List.sum_le_sum
          intro s hs1
          have h2 : s ≤ t := hs'.2.2 s hs1 t (by simp)
          nlinarith
        rw [sp.2.2] at this
        linarith)
      refine ⟨used, unused, by simpa using h1, ⟨t :: more, by simpa using h2⟩, h3⟩

/-- The outcome does not depend on list elements that are at least `θ` when it is below `θ`. -/
theorem loopR_congr {c θ : ℝ} :
    ∀ (rest pre rest' : List ℝ), pre ≠ [] → (pre ++ rest).Pairwise (· ≤ ·) → (pre ++ rest').Pairwise (· ≤ ·) →
      (∀ x, pre.getLast? = some x → sqs x pre ≤ c^2) →
      rest.filter (fun t => decide (t < θ)) = rest'.filter (fun t => decide (t < θ)) →
      loopR c pre rest < θ → loopR c pre rest' = loopR c pre rest := by
  intro rest
  induction rest with
  | nil =>
    intro pre rest' hp hs hs' hx hf hlt
    cases rest' with
    | nil => rfl
    | cons t rest' =>
      have ht : ¬ t < θ := by
        intro htt
        simp [htt] at hf
      simp only [loopR] at hlt ⊢
      rw [if_pos (by have := eps_pos; linarith)]
  | cons t rest ih =>
    intro pre rest' hp hs hs' hx hf hlt
    have hsp := List.pairwise_append.1 hs
    by_cases htθ : t < θ
    · -- then rest' starts with t as well
      cases rest' with
      | nil => simp [htθ] at hf
      | cons t' rest' =>
        have hs2 := List.pairwise_append.1 hs'
        by_cases ht'θ : t' < θ
        · simp only [List.filter_cons, htθ, ht'θ, decide_true, if_true, List.cons.injEq] at hf
          obtain ⟨rfl, hf⟩ := hf
          unfold loopR at hlt ⊢
          by_cases hc : ndR c pre - t < eps
          · rw [if_pos hc, if_pos hc]
          · rw [if_neg hc] at hlt
            rw [if_neg hc, if_neg hc]
            refine ih (pre ++ [t]) rest' (by simp) (by simpa using hs) (by simpa using hs') ?_ hf hlt
            intro y hy
            rw [List.getLast?_append] at hy
            simp at hy
            subst hy
            obtain ⟨x, hlast⟩ : ∃ x, pre.getLast? = some x := by
              rw [← Option.isSome_iff_exists]; simpa using hp
            have hle : ∀ s ∈ pre, s ≤ x := by
              intro s hs1
              have hs2 := hsp.1
              rw [List.getLast?_eq_some_iff] at hlast
              obtain ⟨ys, rfl⟩ := hlast
              rcases List.mem_append.1 hs1 with h1 | h1
              · exact (List.pairwise_append.1 hs2).2.2 s h1 x (by simp)
              · simp at h1; rw [h1]
            have sp := ndR_spec hp hle (hx x hlast)
            have hge : t ≤ ndR c pre := by have := eps_pos; linarith
            rw [sqs_append]
            simp only [sqs_cons, sub_self, sqs_nil]
            have : sqs t pre ≤ sqs (ndR c pre) pre := by
              unfold sqs
              apply List.sum_le_sum
              intro s hs1
              have h2 : s ≤ t := hsp.2.2 s hs1 t (by simp)
              nlinarith
            rw [sp.2.2] at this
            linarith
        · -- t' ≥ θ and sorted: nothing in rest' is below θ
          have : (t' :: rest').filter (fun t => decide (t < θ)) = [] := by
            rw [List.filter_eq_nil_iff]
            intro s hs1
            rcases List.mem_cons.1 hs1 with rfl | hs1
            · simpa using ht'θ
            · have := (List.pairwise_cons.1 hs2.2.1).1 s hs1
              simp only [decide_eq_true_eq, not_lt]; linarith
          rw [this] at hf
          simp [htθ] at hf
    · -- nothing in rest is below θ: the loop stopped here
      have hnone : (t :: rest).filter (fun t => decide (t < θ)) = [] := by
        rw [List.filter_eq_nil_iff]
        intro s hs1
        rcases List.mem_cons.1 hs1 with rfl | hs1
        · simpa using htθ
        · have := (List.pairwise_cons.1 hsp.2.1).1 s hs1
          simp only [decide_eq_true_eq, not_lt]; linarith
      have hstop : ndR c pre < θ := by
        unfold loopR at hlt
        by_cases hc : ndR c pre - t < eps
        · rwa [if_pos hc] at hlt
        · exfalso
          rw [if_neg hc] at hlt
          -- the loop result dominates all used values, t is used
          obtain ⟨x, hlast⟩ : ∃ x, pre.getLast? = some x := by
            rw [← Option.isSome_iff_exists]; simpa using hp
          have hle : ∀ s ∈ pre, s ≤ x := by
            intro s hs1
            have hs2 := hsp.1
            rw [List.getLast?_eq_some_iff] at hlast
            obtain ⟨ys, rfl⟩ := hlast
            rcases List.mem_append.1 hs1 with h1 | h1
            · exact (List.pairwise_append.1 hs2).2.2 s h1 x (by simp)
            · simp at h1; rw [h1]
          have sp := ndR_spec hp hle (hx x hlast)
          have hge : t ≤ ndR c pre := by have := eps_pos; linarith
          obtain ⟨used, unused, h1, ⟨more, h2⟩, h3, h4, h5⟩ := loopR_spec (c := c) rest (pre ++ [t]) (by simp)
            (by simpa using hs) (by
              intro y hy
              rw [List.getLast?_append] at hy
              simp at hy
              subst hy
              rw [sqs_append]
              simp only [sqs_cons, sub_self, sqs_nil]
              have : sqs t pre ≤ sqs (ndR c pre) pre := by
                unfold sqs
                apply List.sum_le_sum
                intro s hs1
                have h2 : s ≤ t := hsp.2.2 s hs1 t (by simp)
                nlinarith
              rw [sp.2.2] at this
              linarith)
          have := h4 t (by rw [h2]; simp)
          linarith
      have e1 : loopR c pre (t :: rest) = ndR c pre := by
        unfold loopR
        rw [if_pos (by have := eps_pos; linarith)]
      rw [e1]
      cases rest' with
      | nil => rfl
      | cons t' rest' =>
        have ht' : ¬ t' < θ := by
          intro htt
          rw [hnone] at hf
          simp [htt] at hf
        simp only [loopR]
        rw [if_pos (by have := eps_pos; linarith)]

/-! ### sorting -/

theorem insertF_fin (x : ℝ) (l : List ℝ) : insertF (fin x) (l.map fin) = (l.orderedInsert (· ≤ ·) x).map fin := by
  induction l with
  | nil => rfl
  | cons y l ih =>
    simp only [List.map_cons, insertF, List.orderedInsert]
    have : Arith.lt (fin y) (fin x) = decide (y < x) := by
      show XR.lt _ _ = _
      simp only [XR.lt]
    rw [this]
    by_cases hxy : y < x
    · simp only [hxy, decide_true, if_true]
      rw [if_neg (not_le.2 hxy), ih]; rfl
    · simp only [hxy, decide_false, Bool.false_eq_true, if_false]
      rw [if_pos (not_lt.1 hxy)]; rfl

theorem sortF_fin (l : List ℝ) : sortF (l.map fin) = (l.insertionSort (· ≤ ·)).map fin := by
  induction l with
  | nil => rfl
  | cons x l ih => simp only [List.map_cons, sortF, ih, List.insertionSort_cons]; exact insertF_fin _ _

/-- real-valued outcome of `solveList`: `⊤` stands for `+inf` -/
noncomputable def eikR (c : ℝ) (ts : List ℝ) : WithTop ℝ :=
  match ts.insertionSort (· ≤ ·) with
  | [] => ⊤
  | t :: rest => ((loopR c [t] rest : ℝ) : WithTop ℝ)

/-- extended reals as `WithTop ℝ` (only used for `+inf` and finite values) -/
noncomputable def toT : XR → WithTop ℝ
  | fin r => (r : WithTop ℝ)
  | _ => ⊤

/-- inverse of `toT` on the values that occur -/
noncomputable def ofT : WithTop ℝ → XR
  | none => pinf
  | some r => fin r

@[simp] theorem ofT_top : ofT ⊤ = pinf := rfl
@[simp] theorem ofT_coe (r : ℝ) : ofT (r : WithTop ℝ) = fin r := rfl
@[simp] theorem toT_fin (r : ℝ) : toT (fin r) = (r : WithTop ℝ) := rfl
@[simp] theorem toT_pinf : toT pinf = ⊤ := rfl
@[simp] theorem toT_ofT (t : WithTop ℝ) : toT (ofT t) = t := by cases t <;> rfl

theorem solveList_fin {h v : ℝ} (hh : 0 < h) (hv : 0 < v) (ts : List ℝ) :
    solveList (fin h) (fin v) (ts.map fin) = ofT (eikR (h/v) ts) := by
  unfold eikR
  cases hts : ts with
  | nil => rfl
  | cons a l =>
    have hlen : (ts.insertionSort (· ≤ ·)).length = ts.length := List.length_insertionSort _ _
    have hsorted : (ts.insertionSort (· ≤ ·)).Pairwise (· ≤ ·) := List.pairwise_insertionSort _ _
    simp only [List.map_cons, solveList]
    rw [← List.map_cons, sortF_fin]
    rw [← hts]
    cases hsort : ts.insertionSort (· ≤ ·) with
    | nil => rw [hsort, hts] at hlen; simp at hlen
    | cons t rest =>
      simp only
      rw [hsort] at hlen hsorted
      have := eikLoop_fin hh hv rest [t] (by simp) (by simpa using hsorted) (by
        intro x hx; simp at hx; subst hx; simp; positivity)
      simp only [List.singleton_append, List.length_singleton] at this
      rw [List.length_map, ← hlen]
      simpa using this

/-- **outcome of the update** on a non-empty list: finite, the `k` smallest values are used. -/
theorem eikR_spec {c : ℝ} (hc : 0 < c) {ts : List ℝ} (hne : ts ≠ []) :
    ∃ (u : ℝ) (used unused : List ℝ), eikR c ts = (u : WithTop ℝ) ∧ List.Perm ts (used ++ unused) ∧ used ≠ [] ∧
      sqs u used = c^2 ∧ (∀ t ∈ used, t ≤ u) ∧ (∀ t ∈ unused, u - eps < t) ∧
      (∀ a ∈ used, ∀ b ∈ unused, a ≤ b) := by
  have hlen : (ts.insertionSort (· ≤ ·)).length = ts.length := List.length_insertionSort _ _
  have hsorted : (ts.insertionSort (· ≤ ·)).Pairwise (· ≤ ·) := List.pairwise_insertionSort _ _
  have hperm : (ts.insertionSort (· ≤ ·)).Perm ts := List.perm_insertionSort _ _
  unfold eikR
  cases hsort : ts.insertionSort (· ≤ ·) with
  | nil => rw [hsort] at hlen; exact absurd (List.length_eq_zero_iff.1 hlen.symm) hne
  | cons t rest =>
    rw [hsort] at hsorted hperm
    obtain ⟨used, unused, h1, ⟨more, h2⟩, h3, h4, h5⟩ := loopR_spec (c := c) rest [t] (by simp) (by simpa using hsorted)
      (by intro x hx; simp at hx; subst hx; simp; positivity)
    simp only [List.singleton_append] at h1
    refine ⟨_, used, unused, rfl, ?_, by rw [h2]; simp, h3, h4, h5, ?_⟩
    · rw [← h1]; exact hperm.symm
    · rw [h1] at hsorted
      exact (List.pairwise_append.1 hsorted).2.2

theorem eikR_nil (c : ℝ) : eikR c [] = ⊤ := rfl

theorem filter_insertionSort_lt (θ : ℝ) (l : List ℝ) :
    (l.insertionSort (· ≤ ·)).filter (fun t => decide (t < θ)) =
      (l.filter (fun t => decide (t < θ))).insertionSort (· ≤ ·) := by
  have h1 : ((l.insertionSort (· ≤ ·)).filter (fun t => decide (t < θ))).Perm
      ((l.filter (fun t => decide (t < θ))).insertionSort (· ≤ ·)) :=
    ((List.perm_insertionSort _ _).filter _).trans (List.perm_insertionSort _ _).symm
  refine List.Perm.eq_of_pairwise (le := fun a b : ℝ => a ≤ b) ?_ ?_ ?_ h1
  · intro a b _ _ h1 h2; exact le_antisymm h1 h2
  · exact (List.pairwise_insertionSort _ l).filter _
  · exact List.pairwise_insertionSort _ _

/-- The update only depends on the values below any bound exceeding its outcome. -/
theorem eikR_congr {c θ : ℝ} (hc : 0 < c) {ts ts' : List ℝ}
    (hp : List.Perm (ts.filter (fun t => decide (t < θ))) (ts'.filter (fun t => decide (t < θ))))
    {u : ℝ} (hu : eikR c ts = (u : WithTop ℝ)) (hlt : u < θ) : eikR c ts' = (u : WithTop ℝ) := by
  have hne : ts ≠ [] := by rintro rfl; rw [eikR_nil] at hu; exact absurd hu (WithTop.top_ne_coe)
  obtain ⟨u', used, unused, h1, h2, h3, h4, h5, h6, _⟩ := eikR_spec hc hne
  have huu : u' = u := by rw [h1] at hu; exact_mod_cast hu
  subst huu
  have hs : (ts.insertionSort (· ≤ ·)).Pairwise (· ≤ ·) := List.pairwise_insertionSort _ _
  have hs' : (ts'.insertionSort (· ≤ ·)).Pairwise (· ≤ ·) := List.pairwise_insertionSort _ _
  have hfe : (ts.insertionSort (· ≤ ·)).filter (fun t => decide (t < θ)) =
      (ts'.insertionSort (· ≤ ·)).filter (fun t => decide (t < θ)) := by
    rw [filter_insertionSort_lt, filter_insertionSort_lt]
    refine List.Perm.eq_of_pairwise (le := fun a b : ℝ => a ≤ b) ?_ ?_ ?_ ?_
    · intro a b _ _ h1 h2; exact le_antisymm h1 h2
    · exact List.pairwise_insertionSort _ _
    · exact List.pairwise_insertionSort _ _
    · exact ((List.perm_insertionSort _ _).trans hp).trans (List.perm_insertionSort _ _).symm
  have hmin : ∃ a ∈ ts, a < θ := by
    cases used with
    | nil => exact absurd rfl h3
    | cons a l => exact ⟨a, h2.symm.subset (by simp), lt_of_le_of_lt (h5 a (by simp)) hlt⟩
  unfold eikR at h1 ⊢
  cases hsort : ts.insertionSort (· ≤ ·) with
  | nil => rw [hsort] at h1; exact absurd h1 WithTop.top_ne_coe
  | cons t rest =>
    rw [hsort] at h1 hs hfe
    simp only at h1
    have h1' : loopR c [t] rest = u' := by exact_mod_cast h1
    have htθ : t < θ := by
      obtain ⟨a, ha, haθ⟩ := hmin
      have : a ∈ t :: rest := by rw [← hsort]; exact (List.perm_insertionSort _ _).symm.subset ha
      rcases List.mem_cons.1 this with rfl | hm
      · exact haθ
      · exact lt_of_le_of_lt ((List.pairwise_cons.1 hs).1 a hm) haθ
    cases hsort' : ts'.insertionSort (· ≤ ·) with
    | nil => rw [hsort'] at hfe; simp [htθ] at hfe
    | cons t' rest' =>
      rw [hsort'] at hs' hfe
      have ht'θ : t' < θ := by
        by_contra hc'
        have : (t' :: rest').filter (fun t => decide (t < θ)) = [] := by
          rw [List.filter_eq_nil_iff]
          intro s hs1
          rcases List.mem_cons.1 hs1 with rfl | hs1
          · simpa using hc'
          · have := (List.pairwise_cons.1 hs').1 s hs1
            simp only [decide_eq_true_eq, not_lt]; linarith
        rw [this] at hfe
        simp [htθ] at hfe
      simp only [List.filter_cons, htθ, ht'θ, decide_true, if_true, List.cons.injEq] at hfe
      obtain ⟨rfl, hfe⟩ := hfe
      simp only
      have := loopR_congr (c := c) rest [t] rest' (by simp) (by simpa using hs) (by simpa using hs')
        (by intro x hx; simp at hx; subst hx; simp; positivity) hfe (by rw [h1']; exact hlt)
      rw [this, h1']

end FMV
