import Verif.Props.F64
import Verif.Props.GMMTerm
import Verif.Model.GMM
import Verif.Model.Solver
/-
C54 in doubles: on a map whose slowest cells are much slower than its fastest one, adding the time step no longer changes the bound of the group and
GMM never ends.
-/
namespace FMV
open Arith Spec Shape
variable {F : Type} [Arith F]
namespace GMM
open FMM (Steps)

/-- all cells of the list are later than the bound, and adding the step does not change the bound -/
structure Stuck (dt : F) (s : St F) : Prop where
  same : add s.tm dt = s.tm
  late : ∀ x ∈ s.gamma, le (s.g.value x) s.tm = false
  ne : s.gamma ≠ []
  stop : s.stop = false

theorem Stuck.notDone {dt : F} {s : St F} (h : Stuck dt s) : ¬ Done s := by
  rintro ⟨_, h1 | h1⟩
  · rw [h.stop] at h1; cases h1
  · exact h.ne h1

theorem Stuck.next {dt : F} {s : St F} (h : Stuck dt s) (goal : Nat) (eik : Eik F) : Stuck dt (next dt goal eik s) := by
  unfold GMM.next
  split
  · next x rest hr =>
    have hx : x ∈ s.gamma := by unfold St.gamma; rw [hr]; simp
    unfold visit
    rw [if_neg (by rw [h.late x hx]; simp)]
    have e : (⟨s.g, s.kept ++ [x], rest, s.app, s.tm, s.stop⟩ : St F).gamma = s.gamma := by
      unfold St.gamma; rw [hr]; simp
    refine ⟨h.same, ?_, ?_, h.stop⟩
    · intro y hy; rw [e] at hy; exact h.late y hy
    · rw [e]; exact h.ne
  · next hr =>
    unfold begin
    dsimp only
    rw [h.same]
    have hp : pass1 eik s.tm s.gamma s.g = s.g := by
      unfold pass1
      have : ∀ l : List Nat, (∀ x ∈ l, le (s.g.value x) s.tm = false) →
          l.foldl (fun g x => if le (g.value x) s.tm then (g.shape.nbrs x).foldl (relax1 eik) g else g) s.g = s.g := by
        intro l
        induction l with
        | nil => intro _; rfl
        | cons a l ih =>
          intro hl
          rw [List.foldl_cons, if_neg (by rw [hl a (by simp)]; simp)]
          exact ih (fun x hx => hl x (by simp [hx]))
      exact this _ (fun x hx => h.late x (by simpa using hx))
    rw [hp]
    have e : (⟨s.g, [], s.gamma, [], s.tm, s.stop⟩ : St F).gamma = s.gamma := by
      show [] ++ s.gamma ++ [] = _; simp
    refine ⟨h.same, ?_, ?_, h.stop⟩
    · intro y hy; rw [e] at hy; exact h.late y hy
    · rw [e]; exact h.ne

/-- The map of the counterexample: a corridor of three cells (the left column of a 2 x 3 grid) beside a wall; the first cell has speed `vF`, the
others speed `vS`. -/
def slowMap (h vF vS : F) : Grid F :=
  { Grid.create [2,3] h (0,0) with cells := fun i =>
      { value := inf, occupancy := if i = 0 then vF else if i = 2 ∨ i = 4 then vS else zero, hValue := zero, state := .opn, bucket := 0, index := i } }

/-- What the arithmetic must do for the counterexample to work: crossing a slow cell takes `T = h / vS`, and `T + dt` is rounded to `T`. -/
structure Absorbs (h vS T dt : F) : Prop where
  free : lt vS margin = false
  wall : lt (zero : F) margin = true
  nz : Arith.eq vS zero = false
  i0 : isInf (zero : F) = false
  ii : isInf (inf : F) = true
  zi : lt (zero : F) inf = true
  i1 : isInf T = false
  l1 : lt T inf = true
  t1 : add zero (div h vS) = T
  l2 : lt (add T (div h vS)) inf = true
  l12 : lt T (add T (div h vS)) = true
  same : add T dt = T
  le1 : le T T = true
  le2 : le (add T (div h vS)) T = false

variable {h vF vS T dt : F}

private theorem fits23 : Fits [2,3] (2^31+1) := ⟨by decide, by decide, by decide⟩

theorem eik2 (A : Absorbs h vS T dt) {g : Grid F} (hs : g.shape = Shape.mk' [2,3]) (hl : g.leaf = h) (hv : g.vel 2 = vS) (h0 : g.value 0 = zero)
    (h2 : g.value 2 = inf) (h3 : g.value 3 = inf) (h4 : g.value 4 = inf) : (eikS g 2).1 = T := by
  rw [eikS_eq_solve fits23 (by decide) hs (by decide)]
  have e : usable g 2 = [zero] := by
    unfold usable
    rw [hs]
    have r : (List.range (Shape.mk' [2,3]).ndims) = [0, 1] := by decide
    rw [r]
    have m0 : g.minDim 2 0 = inf := by
      unfold Grid.minDim; rw [hs, show (Shape.mk' [2,3]).nbrsDim 2 0 = [3] by decide]; exact h3
    have m1 : g.minDim 2 1 = zero := by
      unfold Grid.minDim; rw [hs, show (Shape.mk' [2,3]).nbrsDim 2 1 = [0,4] by decide]; dsimp only
      rw [h0, h4, A.zi]; rfl
    simp [m0, m1, A.ii, A.i0, h2, A.zi]
  unfold solveEikonal
  rw [e, hl, hv]
  simp only [solveList, sortF, insertF, List.length_singleton, eikLoop, solveND, if_true, List.headD_cons]
  exact A.t1

theorem eik4 (A : Absorbs h vS T dt) {g : Grid F} (hs : g.shape = Shape.mk' [2,3]) (hl : g.leaf = h) (hv : g.vel 4 = vS) (h2 : g.value 2 = T)
    (h5 : g.value 5 = inf) (h4 : g.value 4 = inf ∨ g.value 4 = add T (div h vS)) : (eikS g 4).1 = add T (div h vS) := by
  rw [eikS_eq_solve fits23 (by decide) hs (by decide)]
  have e : usable g 4 = [T] := by
    unfold usable
    rw [hs]
    have r : (List.range (Shape.mk' [2,3]).ndims) = [0, 1] := by decide
    rw [r]
    have m0 : g.minDim 4 0 = inf := by
      unfold Grid.minDim; rw [hs, show (Shape.mk' [2,3]).nbrsDim 4 0 = [5] by decide]; exact h5
    have m1 : g.minDim 4 1 = T := by
      unfold Grid.minDim; rw [hs, show (Shape.mk' [2,3]).nbrsDim 4 1 = [2] by decide]; exact h2
    rcases h4 with h4 | h4 <;> simp [m0, m1, A.ii, A.i1, h4, A.l1, A.l12]
  unfold solveEikonal
  rw [e, hl, hv]
  rfl

/-- what is known of the grid in the first three steps -/
structure Shot (h vF vS T : F) (t4 : F) (s2 s4 : FMState) (g : Grid F) : Prop where
  map : SameMap (slowMap h vF vS) g
  v0 : g.value 0 = zero
  v2 : g.value 2 = T
  v4 : g.value 4 = t4
  v5 : g.value 5 = inf
  s0 : g.state 0 = .frozen
  s2 : g.state 2 = s2
  s4 : g.state 4 = s4

theorem Shot.occ {t4 : F} {a b} {g : Grid F} (A : Absorbs h vS T dt) (S : Shot h vF vS T t4 a b g) :
    g.occ 1 = true ∧ g.occ 3 = true ∧ g.occ 2 = false ∧ g.occ 4 = false ∧ g.vel 4 = vS ∧ g.leaf = h ∧ g.shape = Shape.mk' [2,3] := by
  refine ⟨?_, ?_, ?_, ?_, ?_, S.map.leaf, S.map.shape⟩
  · rw [SameMap.occ_eq S.map]; exact A.wall
  · rw [SameMap.occ_eq S.map]; exact A.wall
  · rw [SameMap.occ_eq S.map]; exact A.free
  · rw [SameMap.occ_eq S.map]; exact A.free
  · rw [SameMap.vel_eq S.map]; rfl

/-- **Finding** (C54), any arithmetic: if the bound absorbs the time step before the wave has passed the slow cells, GMM never ends. -/
theorem absorbed_never_ends (A : Absorbs h vS T dt) (goal : Nat) (hgoal : goal ≠ 2) (n : Nat) (s : St F)
    (hs : Steps (Step dt goal eikS) n (init eikS (slowMap h vF vS) [] [0]) s) : ¬ Done s := by
  -- the initialisation
  have n0 : (slowMap h vF vS).shape.nbrs 0 = [1, 2] := (by decide : (Shape.mk' [2,3]).nbrs 0 = [1, 2])
  have i0 : ∃ g, init eikS (slowMap h vF vS) [] [0] = ⟨g, [2], [], [], T, false⟩ ∧ Shot h vF vS T inf .narrow .opn g := by
    unfold init
    simp only [List.foldl_cons, List.foldl_nil]
    unfold initPoint
    rw [n0]
    simp only [List.foldl_cons, List.foldl_nil]
    set g1 := (Grid.setState ((slowMap h vF vS).setValue 0 zero) 0 .frozen) with hg1
    have hm1 : SameMap (slowMap h vF vS) g1 := (sameMap_setValue _ _ _).trans (sameMap_setState _ _ _)
    have e1 : initNbr eikS (g1, [], inf) 1 = (g1, [], inf) := by
      unfold initNbr
      rw [if_pos (Or.inr (by show g1.occ 1 = true; rw [SameMap.occ_eq hm1]; exact A.wall))]
    have hv : ∀ k, k ≠ 0 → g1.value k = inf := by
      intro k hk; rw [hg1, Grid.value_setState, Grid.value_setValue, if_neg hk]; rfl
    have hst : ∀ k, k ≠ 0 → g1.state k = .opn := by
      intro k hk; rw [hg1, Grid.state_setState, if_neg hk, Grid.state_setValue]; rfl
    have hst0 : g1.state 0 = .frozen := by rw [hg1, Grid.state_setState, if_pos rfl]
    have hv0 : g1.value 0 = zero := by rw [hg1, Grid.value_setState, Grid.value_setValue, if_pos rfl]
    have e2 := eik2 A hm1.shape hm1.leaf (by rw [SameMap.vel_eq hm1]; rfl) hv0 (hv 2 (by decide)) (hv 3 (by decide)) (hv 4 (by decide))
    have e3 : initNbr eikS (g1, [], inf) 2 = (((g1.setScratch (eikS g1 2).2).setValue 2 T).setState 2 .narrow, [2], T) := by
      unfold initNbr
      rw [if_neg]
      · dsimp only; rw [e2, A.l1]; rfl
      · rintro (hh | hh)
        · change g1.state 2 = _ at hh; rw [hst 2 (by decide)] at hh; cases hh
        · change g1.occ 2 = true at hh; rw [SameMap.occ_eq hm1] at hh
          have : (slowMap h vF vS).occ 2 = false := A.free
          rw [this] at hh; cases hh
    rw [e1, e3]
    refine ⟨_, rfl, ⟨((hm1.trans (sameMap_setScratch _ _)).trans (sameMap_setValue _ _ _)).trans (sameMap_setState _ _ _), ?_, ?_, ?_, ?_, ?_, ?_, ?_⟩⟩
    · simp [Grid.value_setValue, hv0]
    · simp [Grid.value_setValue]
    · simp [Grid.value_setValue, hv]
    · simp [Grid.value_setValue, hv]
    · simp [Grid.state_setState, hst0]
    · simp [Grid.state_setState]
    · simp [Grid.state_setState, hst]
  obtain ⟨g, e0, S0⟩ := i0
  -- the first pass
  have n2 : (slowMap h vF vS).shape.nbrs 2 = [3, 0, 4] := (by decide : (Shape.mk' [2,3]).nbrs 2 = [3, 0, 4])
  have i1 : ∃ g', next dt goal eikS ⟨g, [2], [], [], T, false⟩ = ⟨g', [], [2], [], T, false⟩ ∧ Shot h vF vS T (add T (div h vS)) .narrow .opn g' := by
    unfold next begin
    dsimp only
    rw [A.same]
    refine ⟨_, rfl, ?_⟩
    unfold pass1
    have eg : (⟨g, [2], [], [], T, false⟩ : St F).gamma = [2] := rfl
    rw [eg]
    simp only [List.reverse_cons, List.reverse_nil, List.nil_append, List.foldl_cons, List.foldl_nil]
    rw [S0.v2, if_pos A.le1, S0.map.shape, n2]
    simp only [List.foldl_cons, List.foldl_nil]
    obtain ⟨o1, o3, o2, o4, v4, lf, sh⟩ := S0.occ A
    have e3 : relax1 eikS g 3 = g := by unfold relax1; exact if_pos (Or.inr (Or.inl o3))
    have e0 : relax1 eikS g 0 = g := by unfold relax1; exact if_pos (Or.inl S0.s0)
    have e4 : relax1 eikS g 4 = (g.setScratch (eikS g 4).2).setValue 4 (add T (div h vS)) := by
      unfold relax1
      rw [if_neg]
      · unfold lower
        rw [eik4 A sh lf v4 S0.v2 S0.v5 (.inl S0.v4), S0.v4, A.l2]; rfl
      · rintro (h | h | h)
        · rw [S0.s4] at h; cases h
        · rw [o4] at h; cases h
        · rw [v4, A.nz] at h; cases h
    rw [e3, e0, e4]
    refine ⟨(S0.map.trans (sameMap_setScratch _ _)).trans (sameMap_setValue _ _ _), ?_, ?_, ?_, ?_, ?_, ?_, ?_⟩
    · simp [Grid.value_setValue, S0.v0]
    · simp [Grid.value_setValue, S0.v2]
    · simp [Grid.value_setValue]
    · simp [Grid.value_setValue, S0.v5]
    · simp [S0.s0]
    · simp [S0.s2]
    · simp [S0.s4]
  obtain ⟨g', e1, S1⟩ := i1
  -- the second pass
  have i2 : Stuck dt (next dt goal eikS ⟨g', [], [2], [], T, false⟩) := by
    unfold next visit
    dsimp only
    rw [S1.v2, if_pos A.le1, S1.map.shape, n2]
    simp only [List.foldl_cons, List.foldl_nil]
    obtain ⟨o1, o3, o2, o4, v4, lf, sh⟩ := S1.occ A
    set s1 : St F := ⟨g', [], [2], [], T, false⟩ with hs1
    have e3 : relax2 eikS s1 3 = s1 := by unfold relax2; exact if_pos (Or.inr (Or.inl o3))
    have e0 : relax2 eikS s1 0 = s1 := by unfold relax2; exact if_pos (Or.inl S1.s0)
    have hnl : (lower eikS g' 4).value 4 = add T (div h vS) ∧ (lower eikS g' 4).state 4 = .opn := by
      unfold lower
      rw [eik4 A sh lf v4 S1.v2 S1.v5 (.inr S1.v4)]
      dsimp only
      split
      · exact ⟨by simp [Grid.value_setValue], by simp [S1.s4]⟩
      · exact ⟨by simp [S1.v4], by simp [S1.s4]⟩
    have e4 : relax2 eikS s1 4 = ⟨(lower eikS g' 4).setState 4 .narrow, [], [2], [4], T, false⟩ := by
      unfold relax2
      rw [if_neg]
      · dsimp only
        rw [show s1.g = g' from rfl, if_pos hnl.2]; rfl
      · rintro (h | h | h)
        · change g'.state 4 = _ at h; rw [S1.s4] at h; cases h
        · change g'.occ 4 = _ at h; rw [o4] at h; cases h
        · change Arith.eq (g'.vel 4) _ = true at h; rw [v4, A.nz] at h; cases h
    rw [e3, e0, e4, if_neg (Ne.symm hgoal)]
    refine ⟨A.same, ?_, by simp [St.gamma], rfl⟩
    intro x hx
    have hx : x = 4 := by simpa [St.gamma] using hx
    subst hx
    show le (((lower eikS g' 4).setState 4 .narrow).setState 2 .frozen |>.value 4) T = false
    rw [Grid.value_setState, Grid.value_setState, hnl.1]
    exact A.le2
  have key : s = init eikS (slowMap h vF vS) [] [0] ∨ s = ⟨g', [], [2], [], T, false⟩ ∨ Stuck dt s := by
    refine Steps.inv (I := fun s => s = init eikS (slowMap h vF vS) [] [0] ∨ s = ⟨g', [], [2], [], T, false⟩ ∨ Stuck dt s) ?_ hs (.inl rfl)
    rintro a b (rfl | rfl | ha) ⟨_, rfl⟩
    · right; left; rw [e0, e1]
    · right; right; exact i2
    · right; right; exact ha.next goal eikS
  rcases key with rfl | rfl | h
  · rw [e0]; rintro ⟨_, h | h⟩
    · cases h
    · simp [St.gamma] at h
  · rintro ⟨h, _⟩; cases h
  · exact h.notDone

/-! ### the counterexample in doubles -/

/-- a finite double -/
def dbl {R : Rounding} (x : ℝ) (hx : IsDouble x) : F64 R := ⟨.fin x, fun r h => by cases h; exact hx⟩

theorem dbl_add {R : Rounding} {x y z : ℝ} (hx : IsDouble x) (hy : IsDouble y) (hz : IsDouble z) (h : R.rd (x + y) = .fin z) :
    (add (dbl x hx) (dbl y hy) : F64 R) = dbl z hz := Subtype.ext (by show R.rd (x + y) = _; rw [h]; rfl)

theorem dbl_div {R : Rounding} {x y z : ℝ} (hx : IsDouble x) (hy : IsDouble y) (hy0 : y ≠ 0) (hz : IsDouble z) (h : x / y = z) :
    (div (dbl x hx) (dbl y hy) : F64 R) = dbl z hz := Subtype.ext (by
  show (F64.rnd R (XR.div (.fin x) (.fin y))).1 = _
  simp only [XR.div, if_neg hy0, F64.rnd]
  rw [h, R.exact z hz]; rfl)

/-- `2^54 + 1` is rounded to `2^54`, because the next double is `2^54 + 4` -/
theorem nearest_absorbs : Rounding.nearest.rd ((2:ℝ)^(54:ℤ) + 1) = .fin ((2:ℝ)^(54:ℤ)) := by
  have hd : IsDouble ((2:ℝ)^(54:ℤ)) := IsDouble.pow (by norm_num) (by norm_num)
  have hbig : (2:ℝ)^(54:ℤ) + 1 < overflow := by
    have := IsDouble.lt_overflow (IsDouble.pow (e := 55) (by norm_num) (by norm_num))
    rw [abs_of_pos (by positivity)] at this
    refine lt_trans ?_ this
    norm_num
  show rdNearest _ = _
  unfold rdNearest
  have hov : 0 ≤ overflow := le_trans (abs_nonneg _) (IsDouble.lt_overflow IsDouble.zero).le
  rw [if_neg (by linarith), if_neg (by
    have : (0:ℝ) < (2:ℝ)^(54:ℤ) := by positivity
    linarith)]
  congr 1
  have h1 := nearestDouble_le ((2:ℝ)^(54:ℤ) + 1) _ hd
  obtain ⟨m, e, hm, he1, he2, heq⟩ := nearestDouble_mem ((2:ℝ)^(54:ℤ) + 1)
  rw [show (2:ℝ)^(54:ℤ) + 1 - (2:ℝ)^(54:ℤ) = 1 by ring, abs_one] at h1
  generalize nearestDouble ((2:ℝ)^(54:ℤ) + 1) = s at *
  have hs := abs_le.1 h1
  have hp : (0:ℝ) < (2:ℝ)^e := zpow_pos (by norm_num) _
  have hmR : (m:ℝ) < 2^53 := by exact_mod_cast (abs_lt.1 hm).2
  have h54 : (2:ℝ)^(54:ℤ) = 18014398509481984 := by norm_num
  rw [h54] at hs ⊢
  have he : 2 ≤ e := by
    by_contra hc
    have : (2:ℝ)^e ≤ (2:ℝ)^(1:ℤ) := zpow_le_zpow_right₀ (by norm_num) (by omega)
    rw [zpow_one] at this
    have hm0 : (0:ℝ) < m := by
      by_contra h0
      push Not at h0
      have : s ≤ 0 := by rw [heq]; exact mul_nonpos_of_nonpos_of_nonneg h0 hp.le
      linarith [hs.2]
    have hm1 : (m:ℝ) ≤ 2^53 - 1 := by
      have : m ≤ 2^53 - 1 := by have := (abs_lt.1 hm).2; omega
      exact_mod_cast this
    have : s ≤ (2^53 - 1) * 2 := by
      rw [heq]; exact mul_le_mul hm1 this hp.le (by norm_num)
    norm_num at this
    linarith [hs.2]
  obtain ⟨k, hk⟩ := Int.eq_ofNat_of_zero_le (show 0 ≤ e - 2 by omega)
  have hek : e = (k:ℤ) + 2 := by omega
  have hsi : s = ((m * 2^k * 4 : ℤ) : ℝ) := by
    rw [heq, hek, zpow_add₀ (by norm_num), zpow_natCast]; push_cast; norm_num; ring
  rw [hsi] at hs ⊢
  have a1 : (m * 2^k * 4 : ℤ) ≤ 18014398509481986 := by
    have := hs.1; have : ((m * 2^k * 4 : ℤ) : ℝ) ≤ 18014398509481986 := by linarith
    exact_mod_cast this
  have a2 : 18014398509481984 ≤ (m * 2^k * 4 : ℤ) := by
    have : (18014398509481984 : ℝ) ≤ ((m * 2^k * 4 : ℤ) : ℝ) := by linarith [hs.2]
    exact_mod_cast this
  have : (m * 2^k * 4 : ℤ) = 18014398509481984 := by omega
  rw [this]; norm_num

private theorem d20 : IsDouble ((2:ℝ)^(20:ℤ)) := IsDouble.pow (by norm_num) (by norm_num)
private theorem d34 : IsDouble ((2:ℝ)^(-34:ℤ)) := IsDouble.pow (by norm_num) (by norm_num)
private theorem d54 : IsDouble ((2:ℝ)^(54:ℤ)) := IsDouble.pow (by norm_num) (by norm_num)
private theorem d55 : IsDouble ((2:ℝ)^(55:ℤ)) := IsDouble.pow (by norm_num) (by norm_num)

/-- The 2 x 3 map with cells of size `2^20`, a start cell of speed 1 and a corridor of speed `2^-34` (above `COMP_MARGIN`, so free). -/
noncomputable def corridor : Grid (F64 Rounding.nearest) := slowMap (dbl _ d20) one (dbl _ d34)

theorem corridor_absorbs : Absorbs (F := F64 Rounding.nearest) (dbl _ d20) (dbl _ d34) (dbl _ d54) one := by
  have hdiv : (div (dbl _ d20) (dbl _ d34) : F64 Rounding.nearest) = dbl _ d54 :=
    dbl_div d20 d34 (zpow_ne_zero _ (by norm_num)) d54 (by rw [← zpow_sub₀ (by norm_num)]; norm_num)
  have h55 : (add (dbl _ d54) (dbl _ d54) : F64 Rounding.nearest) = dbl _ d55 :=
    dbl_add d54 d54 d55 (by
      rw [← Rounding.nearest.exact _ d55]; congr 1
      rw [show (55:ℤ) = 54 + 1 by norm_num, zpow_add₀ (by norm_num)]; ring)
  have hlt : (2:ℝ)^(54:ℤ) < (2:ℝ)^(55:ℤ) := zpow_lt_zpow_right₀ (by norm_num) (by norm_num)
  refine ⟨?_, ?_, ?_, rfl, rfl, rfl, rfl, rfl, ?_, ?_, ?_, ?_, ?_, ?_⟩
  · show XR.lt (.fin ((2:ℝ)^(-34:ℤ))) (.fin XR.eps) = false
    simp only [XR.lt, decide_eq_false_iff_not, not_lt]
    unfold XR.eps; norm_num
  · show XR.lt (.fin 0) (.fin XR.eps) = true
    simp [XR.lt, XR.eps_pos]
  · show XR.eq (.fin ((2:ℝ)^(-34:ℤ))) (.fin 0) = false
    simp [XR.eq]
  · rw [hdiv]
    exact dbl_add IsDouble.zero d54 d54 (by rw [zero_add]; exact Rounding.nearest.exact _ d54)
  · rw [hdiv, h55]; rfl
  · rw [hdiv, h55]
    show XR.lt (.fin _) (.fin _) = true
    simpa [XR.lt] using hlt
  · exact dbl_add d54 IsDouble.one d54 nearest_absorbs
  · show XR.le (.fin _) (.fin _) = true
    simp [XR.le]
  · rw [hdiv, h55]
    show XR.le (.fin _) (.fin _) = false
    simpa [XR.le] using hlt

/-- the default step of GMM on this map is `1 / maxSpeed = 1` -/
theorem corridor_deltau : deltau (neg one) corridor = one := by
  have hmax : corridor.getMaxSpeed = one := by
    have e : corridor.toList = (List.range 6).map corridor.cells := rfl
    unfold Grid.getMaxSpeed
    rw [e]
    have r : List.range 6 = [0,1,2,3,4,5] := by decide
    rw [r]
    simp only [List.map_cons, List.map_nil, List.foldl_cons, List.foldl_nil]
    have a0 : (corridor.cells 0).occupancy = one := rfl
    have a1 : (corridor.cells 1).occupancy = zero := rfl
    have a2 : (corridor.cells 2).occupancy = dbl _ d34 := rfl
    have a3 : (corridor.cells 3).occupancy = zero := rfl
    have a4 : (corridor.cells 4).occupancy = dbl _ d34 := rfl
    have a5 : (corridor.cells 5).occupancy = zero := rfl
    rw [a0, a1, a2, a3, a4, a5]
    have l01 : lt (zero : F64 Rounding.nearest) one = true := by
      show XR.lt (.fin 0) (.fin 1) = true; simp [XR.lt]
    have l10 : lt (one : F64 Rounding.nearest) zero = false := by
      show XR.lt (.fin 1) (.fin 0) = false; simp [XR.lt]
    have l1s : lt (one : F64 Rounding.nearest) (dbl _ d34) = false := by
      show XR.lt (.fin 1) (.fin _) = false
      simp only [XR.lt, decide_eq_false_iff_not, not_lt]
      exact zpow_le_one_of_nonpos₀ (by norm_num) (by norm_num)
    simp only [l01, l10, l1s, if_true, Bool.false_eq_true, if_false]
  unfold deltau
  have : lt (neg one : F64 Rounding.nearest) zero = true := by
    show XR.lt (.fin (-1)) (.fin 0) = true; simp [XR.lt]
  rw [this, if_pos rfl, hmax]
  exact dbl_div IsDouble.one IsDouble.one one_ne_zero IsDouble.one (by norm_num)

/-- **Finding** (C54): in double arithmetic (rounding to nearest) GMM with its default time step does not end on every map: on a corridor whose cells
are slow compared with the fastest cell (here: speed `2^-34`, cells of size `2^20`, fastest cell speed 1) `tm_ += deltau_` no longer changes `tm_`
and the outer loop runs forever, although exact arithmetic gives termination (`C49_GMM_terminates`). -/
theorem _root_.FMV.C54_refuted_doubles : ∃ g : Grid (F64 Rounding.nearest), Input [2,3] g [0] ∧ Fresh g ∧
    (∀ i, g.occ i = false → ∃ v : ℝ, (g.vel i).1 = .fin v ∧ 0 < v ∧ v ≤ 1) ∧ (∃ h : ℝ, g.leaf.1 = .fin h ∧ 0 < h) ∧
    ∀ (n : Nat) (s : St (F64 Rounding.nearest)), Steps (Step (deltau (neg one) g) noGoal eikS) n (init eikS g [] [0]) s → ¬ Done s := by
  refine ⟨corridor, ⟨⟨by decide, by decide, by decide⟩, rfl, by decide⟩, ⟨fun _ => rfl, fun _ => rfl, fun _ => rfl⟩, ?_, ⟨_, rfl, by positivity⟩, ?_⟩
  · intro i hi
    by_cases h0 : i = 0
    · subst h0; exact ⟨1, rfl, one_pos, le_refl _⟩
    by_cases h2 : i = 2 ∨ i = 4
    · have : corridor.vel i = dbl _ d34 := by
        show (if i = 0 then _ else if i = 2 ∨ i = 4 then _ else _) = _
        rw [if_neg h0, if_pos h2]
      exact ⟨_, by rw [this]; rfl, by positivity, zpow_le_one_of_nonpos₀ (by norm_num) (by norm_num)⟩
    · exfalso
      have : corridor.occ i = true := by
        show lt (if i = 0 then _ else if i = 2 ∨ i = 4 then _ else _) margin = true
        rw [if_neg h0, if_neg h2]
        exact corridor_absorbs.wall
      rw [this] at hi; cases hi
  · intro n s hs
    rw [corridor_deltau] at hs
    exact absorbed_never_ends corridor_absorbs noGoal (by decide) n s hs

/-- **C54** (partial: exact arithmetic only; false in doubles, `C54_refuted_doubles`, and for a zero step, `C49_GMM_zero_step_never_ends`): GMM stops on
every map with positive speeds, for all initial points, every goal and every positive group step. -/
theorem _root_.FMV.C54_GMM_stops_partial {dims : List Nat} {g : Grid XR} {h : ℝ} {v : Nat → ℝ} {pts : List Nat} (X : XInput dims g h v pts) (hfr : Fresh g)
    (goal : Nat) (d : ℝ) (hd : 0 < d) : ∃ n s, Steps (Step (.fin d) goal eikS) n (init eikS g [] pts) s ∧ Done s :=
  C49_GMM_terminates X hfr goal d hd

/-- The hypotheses are met by the 2 x 2 map of `ex10`. -/
example : ∃ n s, Steps (Step (.fin 1) noGoal eikS) n (init eikS ex10 [] [0]) s ∧ Done s := C54_GMM_stops_partial ex10_input ex10_fresh noGoal 1 one_pos

end GMM
end FMV
