import Verif.Lemmas.FIMAcc64
import Verif.Props.FIMF64
import Verif.Spec.StopErr
/-! C96: FIM in doubles, when it stops (C92: it need not stop). -/
set_option linter.unusedSectionVars false
set_option linter.unusedVariables false
namespace FMV
open Spec Shape XR FMM
variable {R : Rounding}

section final
open FIM
variable {dims : List Nat} {g : Grid (F64 R)} {h : ℝ} {v : Nat → ℝ} {pts : List Nat} {cm cM A : ℝ}

theorem DInput.fimW (I : DInput dims g h v pts cm cM A) (hcc : cm ≤ cM) :
    0 ≤ 2 * cM ∧ ∀ i, i < dims.prod → g.occ i = false → h / v i + I.β ≤ 2 * cM := by
  have h0 := I.cm0
  refine ⟨by linarith, ?_⟩
  intro i hi ho
  have h1 := I.hi i hi ho
  have := I.β_small
  have := I.β_pos
  linarith

theorem DInput.nonAdj (I : DInput dims g h v pts cm cM A) (ha : StartsApart dims g pts) : I.X.NonAdj := by
  intro i hi ho j hj hjp
  exact ha i hi j hjp ho ((axisAdjacent_iff I.X.fits (I.X.inside i hi)).1 hj).2

/-- **C96** (starts): in doubles, in every state of a FIM run, the initial points keep time 0. -/
theorem C96_FIM_starts (I : DInput dims g h v pts cm cM A) (hcc : cm ≤ cM) (hfr : Fresh g) (ha : StartsApart dims g pts)
    (E : F64 R) (e : ℝ) (hE : E.1 = .fin e) (he : 0 ≤ e) (goal n : Nat) (hA : 2 * cM * ((2 * n : Nat) + dims.prod) ≤ A)
    (s : FIM.St (F64 R)) (hs : Steps (FIM.Step E goal eikS) n (FIM.init g [] pts) s) (i : Nat) (hi : i ∈ pts) : (s.g.value i).1 = .fin 0 := by
  obtain ⟨w0, hw⟩ := I.fimW hcc
  have J := AInv64.run I (I.nonAdj ha) hfr he hE w0 hw hA hs
  have L := (I.fim_reach w0 hw hfr hA hs).2
  have h1 : toT (s.g.value i).1 = 0 := (J.src i hi).2
  have h2 : GoodT (s.g.value i).1 := L.good i
  rw [← h2.ofT_toT, h1]; rfl

/-- **C96** (accuracy): in doubles, with every operation rounded, when FIM with threshold `e` and without goal has stopped (after `n` steps of its loop), every
time is the exact solution `U` up to the relative error `stopErr`, `+inf` exactly where `U` is, and never NaN. -/
theorem C96_FIM_accuracy (I : DInput dims g h v pts cm cM A) (hcc : cm ≤ cM) (hfr : Fresh g) (ha : StartsApart dims g pts)
    (U : Nat → WithTop ℝ) (hU : I.X.problem.IsSolution U) (E : F64 R) (e : ℝ) (hE : E.1 = .fin e) (he : 0 ≤ e)
    (goal : Nat) (hgoal : dims.prod ≤ goal) (n : Nat) (hA : 2 * cM * ((2 * n : Nat) + dims.prod) ≤ A)
    (s : FIM.St (F64 R)) (hs : Steps (FIM.Step E goal eikS) n (FIM.init g [] pts) s) (hdone : FIM.Done s)
    (i : Nat) (hi : i < dims.prod) : RelClose (stopErr dims.length cm A e) (U i) (s.g.value i).1 := by
  obtain ⟨w0, hw⟩ := I.fimW hcc
  have J := AInv64.run I (I.nonAdj ha) hfr he hE w0 hw hA hs
  have L := (I.fim_reach w0 hw hfr hA hs).2
  have hstop := stop_false' (⟨I.X.fits, I.X.shape, I.X.inside⟩ : Input dims g pts) hgoal hs
  obtain ⟨h1, h2⟩ := hdone
  have h3 : s.before = [] := by
    rcases h2 with h2 | h2
    · rw [hstop] at h2; cases h2
    · exact h2
  have hnn : ∀ k, k < dims.prod → s.g.state k ≠ .narrow := by
    intro k hk hn
    have := J.nar k hk hn
    unfold Active at this
    rw [h1, h3] at this
    simp at this
  have hθ := I.θ_nonneg
  have hβ := I.β_pos
  have hu := uu_pos
  have hA0 := I.Apos
  have he' : 0 ≤ e + 3 * A * uu := by positivity
  have hup : tf s.g i ≤ scl (1 + 2 * dims.length * (2 * I.β + (e + 3 * A * uu)) / cm) (U i) := by
    refine I.X.accuracy_rel hU (T := tf s.g) (by linarith) I.cm0 I.lo (fun k hk => le_of_eq (J.src k hk).2) ?_ i hi
    intro k hk ho hp
    refine Conv.mono I.X hk (le_refl _) ?_ ?_ (J.conv k hk ho hp (hnn k hk))
    · unfold mask64; rw [if_neg (hnn k hk)]
    · intro j hj
      unfold mask64; rw [if_neg (hnn j (nbr_lt I.X.fits hk hj))]
  have hlow : scl I.lowF (U i) ≤ tf s.g i := L.low U hU i hi
  have hgood : GoodT (s.g.value i).1 := L.good i
  have eT : tf s.g i = toT (s.g.value i).1 := rfl
  rw [eT] at hup hlow
  have hUnn := (I.X.exSol hU).nonneg I.X.fits (fun i hi _ ho => I.X.cpos hi (by simpa using ho)) i hi
  obtain ⟨b1, b2⟩ := I.relErr_ge
  have hc := I.cm0
  have hD : (0:ℝ) ≤ dims.length := Nat.cast_nonneg _
  have eu : (1:ℝ) / 2^51 = uu := by unfold uu; norm_num
  have hextra : 0 ≤ 2 * dims.length * (e + 3 * A * (1 / 2^51)) / cm := by
    rw [eu]
    exact div_nonneg (mul_nonneg (by linarith) he') hc.le
  have hfac : 1 + 2 * dims.length * (2 * I.β + (e + 3 * A * uu)) / cm ≤ 1 + stopErr dims.length cm A e := by
    have e1 : 2 * (dims.length : ℝ) * (I.θ + 2 * I.β + (e + 3 * A * uu)) / cm =
        2 * dims.length * (I.θ + 2 * I.β) / cm + 2 * dims.length * (e + 3 * A * (1 / 2^51)) / cm := by
      rw [eu]; ring
    have e2 : 2 * (dims.length : ℝ) * (2 * I.β + (e + 3 * A * uu)) / cm ≤ 2 * (dims.length : ℝ) * (I.θ + 2 * I.β + (e + 3 * A * uu)) / cm := by
      apply div_le_div_of_nonneg_right _ hc.le
      exact mul_le_mul_of_nonneg_left (by linarith) (by linarith)
    unfold stopErr
    rw [e1] at e2
    linarith
  cases hUi : U i with
  | top =>
    left
    refine ⟨rfl, ?_⟩
    rw [hUi, scl_top, top_le_iff] at hlow
    rcases hgood with hx | ⟨r, _, hx⟩
    · exact hx
    · rw [hx] at hlow; exact absurd hlow WithTop.coe_ne_top
  | coe q =>
    right
    rw [hUi] at hlow hup hUnn
    have hq : (0:ℝ) ≤ q := by exact_mod_cast hUnn
    rcases hgood with hx | ⟨r, hr, hx⟩
    · rw [hx, scl_coe] at hup
      exact absurd (top_le_iff.1 hup) WithTop.coe_ne_top
    · rw [hx] at hlow hup
      rw [scl_coe] at hlow hup
      have h4 : I.lowF * q ≤ r := WithTop.coe_le_coe.1 hlow
      have h5 : r ≤ (1 + 2 * dims.length * (2 * I.β + (e + 3 * A * uu)) / cm) * q := WithTop.coe_le_coe.1 hup
      refine ⟨q, r, rfl, hx, le_trans ?_ h4, le_trans h5 (mul_le_mul_of_nonneg_right hfac hq)⟩
      apply mul_le_mul_of_nonneg_right _ hq
      unfold DInput.lowF stopErr
      linarith
end final

/-! ### non-vacuity: a run in doubles that ends -/
namespace FIM
section chain
variable {F : Type} [Arith F]

/-- what the arithmetic must do on a map with one obstacle -/
structure ChainOk (E two : F) : Prop where
  f0 : Arith.lt (Arith.zero : F) Arith.margin = true
  f1 : Arith.lt (Arith.one : F) Arith.margin = false
  i0 : Arith.isInf (Arith.zero : F) = false
  i1 : Arith.isInf (Arith.one : F) = false
  ii : Arith.isInf (Arith.inf : F) = true
  i2 : Arith.isInf two = false
  z0 : Arith.lt (Arith.zero : F) Arith.inf = true
  z1 : Arith.lt (Arith.zero : F) Arith.one = true
  o0 : Arith.lt (Arith.one : F) Arith.zero = false
  oi : Arith.lt (Arith.one : F) Arith.inf = true
  o2 : Arith.lt (Arith.one : F) two = true
  t1 : Arith.lt two Arith.one = false
  e1 : Arith.add (Arith.zero : F) (Arith.div Arith.one Arith.one) = Arith.one
  e2 : Arith.add (Arith.one : F) (Arith.div Arith.one Arith.one) = two
  c1 : Arith.le (Arith.abs (Arith.sub Arith.inf Arith.one)) E = false
  d1 : Arith.le (Arith.abs (Arith.sub Arith.one Arith.one)) E = true
  d2 : Arith.le (Arith.abs (Arith.sub two two)) E = true
  b0 : Arith.better (Arith.inf : F) Arith.zero = false
  b1 : Arith.better (Arith.one : F) Arith.one = false
  b2 : Arith.better two (Arith.inf : F) = true

variable {E two : F} {t1 t2 t3 : F} {s1 s2 s3 : FMState} {g : Grid F}
local notation "AtC" => At (F := F) Arith.one Arith.zero Arith.one Arith.one

theorem At.cfacts (A : ChainOk E two) (S : AtC t1 t2 t3 s1 s2 s3 g) :
    (g.occ 0 = false ∧ g.occ 1 = true ∧ g.occ 2 = false ∧ g.occ 3 = false) ∧ (g.vel 2 = Arith.one ∧ g.vel 3 = Arith.one) ∧ g.leaf = Arith.one ∧
    g.shape = Shape.mk' [2,2] := by
  refine ⟨⟨?_, ?_, ?_, ?_⟩, ⟨?_, ?_⟩, S.map.leaf, S.map.shape⟩
  · rw [SameMap.occ_eq S.map]; exact A.f1
  · rw [SameMap.occ_eq S.map]; exact A.f0
  · rw [SameMap.occ_eq S.map]; exact A.f1
  · rw [SameMap.occ_eq S.map]; exact A.f1
  · rw [SameMap.vel_eq S.map]; rfl
  · rw [SameMap.vel_eq S.map]; rfl

theorem At.ceik2 (A : ChainOk E two) (S : AtC Arith.inf t2 t3 s1 s2 s3 g) (h2 : t2 = Arith.inf ∧ t3 = Arith.inf ∨ t2 = Arith.one ∧ (t3 = Arith.inf ∨ t3 = two)) :
    (eikS g 2).1 = Arith.one := by
  obtain ⟨_, ⟨w2, _⟩, lf, sh⟩ := S.cfacts A
  rw [eik22 sh (by decide), (min22 sh).2.2.1.1, (min22 sh).2.2.1.2, S.v0, S.v3, S.v2, lf, w2]
  have e : ([t3, Arith.zero].filter (fun t : F => !(Arith.isInf t) && Arith.lt t t2)) = [Arith.zero] := by
    rcases h2 with ⟨rfl, rfl⟩ | ⟨rfl, rfl | rfl⟩ <;> simp [A.i0, A.ii, A.z0, A.z1, A.t1]
  rw [e]
  exact A.e1

theorem At.ceik3 (A : ChainOk E two) (S : AtC Arith.inf Arith.one t3 s1 s2 s3 g) (h3 : t3 = Arith.inf ∨ t3 = two) : (eikS g 3).1 = two := by
  obtain ⟨_, ⟨_, w3⟩, lf, sh⟩ := S.cfacts A
  rw [eik22 sh (by decide), (min22 sh).2.2.2.1, (min22 sh).2.2.2.2, S.v1, S.v2, S.v3, lf, w3]
  have e : ([Arith.one, Arith.inf].filter (fun t : F => !(Arith.isInf t) && Arith.lt t t3)) = [Arith.one] := by
    rcases h3 with rfl | rfl <;> simp [A.i1, A.ii, A.oi, A.o2]
  rw [e]
  exact A.e2

theorem At.ceik0 (A : ChainOk E two) (S : AtC Arith.inf Arith.one t3 s1 s2 s3 g) : (eikS g 0).1 = Arith.inf := by
  obtain ⟨_, _, lf, sh⟩ := S.cfacts A
  rw [eik22 sh (by decide), (min22 sh).1.1, (min22 sh).1.2, S.v0, S.v1, S.v2]
  simp [A.o0, A.ii, solveList]

/-- the run ends after 6 steps -/
theorem chain_ends (A : ChainOk E two) (goal : Nat) (hg : 4 ≤ goal) :
    ∃ s, Steps (Step E goal eikS) 6 (init (crossMap (F := F) Arith.one Arith.zero Arith.one Arith.one) [] [0]) s ∧ Done s ∧ s.g.value 3 = two := by
  have n0 : (Shape.mk' [2,2]).nbrs 0 = [1, 2] := by decide
  have n3 : (Shape.mk' [2,2]).nbrs 3 = [2, 1] := by decide
  have n2 : (Shape.mk' [2,2]).nbrs 2 = [3, 0] := by decide
  have i0 : ∃ g, init (crossMap (F := F) Arith.one Arith.zero Arith.one Arith.one) [] [0] = ⟨g, [2], [], false⟩ ∧
      AtC Arith.inf Arith.inf Arith.inf .opn .narrow .opn g := by
    unfold init
    simp only [List.foldl_cons, List.foldl_nil]
    unfold initPoint
    rw [show (crossMap (F := F) Arith.one Arith.zero Arith.one Arith.one).shape.nbrs 0 = [1, 2] from n0]
    simp only [List.foldl_cons, List.foldl_nil]
    set g1 := (Grid.setState ((crossMap (F := F) Arith.one Arith.zero Arith.one Arith.one).setValue 0 Arith.zero) 0 .frozen) with hg1
    have S1 : AtC Arith.inf Arith.inf Arith.inf .opn .opn .opn g1 := by
      refine ⟨(sameMap_setValue _ _ _).trans (sameMap_setState _ _ _), ?_, ?_, ?_, ?_, ?_, ?_, ?_, ?_⟩
      · rw [hg1, Grid.value_setState, Grid.value_setValue, if_pos rfl]
      · rw [hg1, Grid.value_setState, Grid.value_setValue, if_neg (by decide)]; rfl
      · rw [hg1, Grid.value_setState, Grid.value_setValue, if_neg (by decide)]; rfl
      · rw [hg1, Grid.value_setState, Grid.value_setValue, if_neg (by decide)]; rfl
      · rw [hg1, Grid.state_setState, if_pos rfl]
      · rw [hg1, Grid.state_setState, if_neg (by decide), Grid.state_setValue]; rfl
      · rw [hg1, Grid.state_setState, if_neg (by decide), Grid.state_setValue]; rfl
      · rw [hg1, Grid.state_setState, if_neg (by decide), Grid.state_setValue]; rfl
    obtain ⟨⟨_, o1, o2, _⟩, _⟩ := S1.cfacts A
    have e1 : initNbr (g1, []) 1 = (g1, []) := by
      unfold initNbr; rw [if_neg]; rintro ⟨_, h⟩; rw [o1] at h; cases h
    have e2 : initNbr (g1, []) 2 = (g1.setState 2 .narrow, [2]) := by
      unfold initNbr; rw [if_pos ⟨S1.k2, o2⟩]; rfl
    have S3 := S1.mark (i := 2) (k := .narrow) (by decide)
    simp only [if_true, show ¬ (1 = 2) by decide, show ¬ (3 = 2) by decide, if_false] at S3
    rw [e1, e2]
    exact ⟨_, rfl, S3⟩
  obtain ⟨ga, ea, Sa⟩ := i0
  have ic : ∃ g, next E goal eikS ⟨ga, [], [2], false⟩ = ⟨g, [2], [], false⟩ ∧ AtC Arith.inf Arith.one Arith.inf .opn .narrow .opn g := by
    refine ⟨_, visit_no Sa.v2 (Sa.ceik2 A (.inl ⟨rfl, rfl⟩)) A.c1, ?_⟩
    simpa using Sa.set (i := 2) (t := Arith.one) (scr := (eikS ga 2).2) (by decide)
  obtain ⟨gc, ec, Sc⟩ := ic
  have test0c : ∀ {s : St F} {t3 : F} {s1 s2 s3 : FMState}, AtC Arith.inf Arith.one t3 s1 s2 s3 s.g →
      testNbr eikS s 0 = { s with g := s.g.setScratch (eikS s.g 0).2 } := by
    intro s t3 s1 s2 s3 S
    obtain ⟨⟨o0, _⟩, _⟩ := S.cfacts A
    unfold testNbr
    rw [if_neg (by rw [S.k0, o0]; simp)]
    dsimp only
    rw [S.ceik0 A, S.v0, A.b0]
    rfl
  have id' : ∃ g, next E goal eikS ⟨gc, [], [2], false⟩ = ⟨g, [3], [], false⟩ ∧ AtC Arith.inf Arith.one two .opn .frozen .narrow g := by
    show ∃ g, visit E goal eikS ⟨gc, [], [2], false⟩ 2 [] = _ ∧ _
    unfold visit
    dsimp only
    rw [Sc.v2, Sc.ceik2 A (.inr ⟨rfl, .inl rfl⟩), if_pos A.d1]
    have S1 := Sc.set (i := 2) (t := (Arith.one : F)) (scr := (eikS gc 2).2) (by decide)
    simp only [if_true, show ¬ (1 = 2) by decide, show ¬ (3 = 2) by decide, if_false] at S1
    rw [S1.map.shape, show (crossMap (F := F) Arith.one Arith.zero Arith.one Arith.one).shape.nbrs 2 = [3, 0] from n2]
    simp only [List.foldl_cons, List.foldl_nil]
    generalize (gc.setScratch (eikS gc 2).2).setValue 2 Arith.one = g2 at S1 ⊢
    obtain ⟨⟨_, _, _, o3⟩, _⟩ := S1.cfacts A
    have e3 : testNbr eikS ⟨g2, [], [2], false⟩ 3 = ⟨((g2.setScratch (eikS g2 3).2).setValue 3 two).setState 3 .narrow, [3], [2], false⟩ := by
      unfold testNbr
      dsimp only
      rw [if_neg (by rw [S1.k3, o3]; simp), S1.ceik3 A (.inl rfl), S1.v3, if_pos A.b2]
      rfl
    rw [e3]
    have S2 := (S1.set (i := 3) (t := two) (scr := (eikS g2 3).2) (by decide)).mark (i := 3) (k := .narrow) (by decide)
    simp only [if_true, show ¬ (1 = 3) by decide, show ¬ (2 = 3) by decide, if_false] at S2
    rw [test0c S2, if_neg (by omega)]
    refine ⟨_, rfl, ?_⟩
    have S3 := (S2.scratch (eikS (((g2.setScratch (eikS g2 3).2).setValue 3 two).setState 3 .narrow) 0).2).mark (i := 2) (k := .frozen) (by decide)
    simpa using S3
  obtain ⟨gd, ed, Sd⟩ := id'
  have ie : ∃ g, next E goal eikS ⟨gd, [], [3], false⟩ = ⟨g, [], [], false⟩ ∧ g.value 3 = two := by
    show ∃ g, visit E goal eikS ⟨gd, [], [3], false⟩ 3 [] = _ ∧ _
    unfold visit
    dsimp only
    rw [Sd.v3, Sd.ceik3 A (.inr rfl), if_pos A.d2]
    have S1 := Sd.set (i := 3) (t := two) (scr := (eikS gd 3).2) (by decide)
    simp only [if_true, show ¬ (1 = 3) by decide, show ¬ (2 = 3) by decide, if_false] at S1
    rw [S1.map.shape, show (crossMap (F := F) Arith.one Arith.zero Arith.one Arith.one).shape.nbrs 3 = [2, 1] from n3]
    simp only [List.foldl_cons, List.foldl_nil]
    generalize (gd.setScratch (eikS gd 3).2).setValue 3 two = g2 at S1 ⊢
    obtain ⟨⟨_, _, o2, _⟩, _⟩ := S1.cfacts A
    have e2 : testNbr eikS ⟨g2, [], [3], false⟩ 2 = ⟨g2.setScratch (eikS g2 2).2, [], [3], false⟩ := by
      unfold testNbr
      dsimp only
      rw [if_neg (by rw [S1.k2, o2]; simp), S1.ceik2 A (.inr ⟨rfl, .inr rfl⟩), S1.v2, A.b1]
      rfl
    rw [e2]
    have S2 := S1.scratch (eikS g2 2).2
    obtain ⟨⟨_, o1, _, _⟩, _⟩ := S2.cfacts A
    have e1 : testNbr eikS ⟨g2.setScratch (eikS g2 2).2, [], [3], false⟩ 1 = ⟨g2.setScratch (eikS g2 2).2, [], [3], false⟩ := by
      unfold testNbr; exact if_pos (.inr o1)
    rw [e1, if_neg (by omega)]
    exact ⟨_, rfl, by rw [Grid.value_setState]; exact S2.v3⟩
  obtain ⟨ge, ee, he⟩ := ie
  refine ⟨⟨ge, [], [], false⟩, ?_, ⟨rfl, .inr rfl⟩, he⟩
  rw [ea]
  have nd1 : ∀ (g : Grid F) (x : Nat), ¬ Done (⟨g, [x], [], false⟩ : St F) := by rintro g x ⟨_, h | h⟩ <;> cases h
  have nd2 : ∀ (g : Grid F) (x : Nat), ¬ Done (⟨g, [], [x], false⟩ : St F) := by rintro g x ⟨h, _⟩; cases h
  exact .tail (.tail (.tail (.tail (.tail (.tail (.refl _) ⟨nd1 _ _, rfl⟩) ⟨nd2 _ _, ec.symm⟩) ⟨nd1 _ _, rfl⟩) ⟨nd2 _ _, ed.symm⟩) ⟨nd1 _ _, rfl⟩) ⟨nd2 _ _, ee.symm⟩
end chain

theorem chain64 (R : Rounding) (E : F64 R) {e : ℝ} (hE : E.1 = .fin e) (he : 0 ≤ e) : ChainOk E (⟨.fin 2, fun _ h => by cases h; have := isDouble_nat (n := 2) (by norm_num); simpa using this⟩ : F64 R) := by
  have r0 : R.rd 0 = fin 0 := R.exact 0 IsDouble.zero
  have r1 : R.rd 1 = fin 1 := R.exact 1 IsDouble.one
  have r2 : R.rd 2 = fin 2 := R.exact 2 (by have := isDouble_nat (n := 2) (by norm_num); simpa using this)
  have hdiv : (Arith.div Arith.one Arith.one : F64 R).1 = .fin 1 := by
    show (F64.rnd R (XR.div (fin 1) (fin 1))).1 = _
    simp only [XR.div, if_neg one_ne_zero, div_one, F64.rnd]; exact r1
  have hs : ∀ x : ℝ, (F64.rnd R (XR.add (fin x) (XR.neg (fin x)))).1 = .fin 0 := by
    intro x; simp only [XR.add, XR.neg, F64.rnd, add_neg_cancel]; exact r0
  have hep := eps_pos
  have he1 : eps < 1 := by unfold XR.eps; norm_num
  have zle : ∀ x : ℝ, XR.le (XR.abs (F64.rnd R (XR.add (fin x) (XR.neg (fin x)))).1) E.1 = true := by
    intro x; rw [hs, hE]; simpa [XR.abs, XR.le] using he
  refine { f0 := ?_, f1 := ?_, i0 := rfl, i1 := rfl, ii := rfl, i2 := rfl, z0 := rfl, z1 := ?_, o0 := ?_, oi := rfl, o2 := ?_, t1 := ?_, e1 := ?_, e2 := ?_,
           c1 := ?_, d1 := zle 1, d2 := zle 2, b0 := ?_, b1 := ?_, b2 := ?_ }
  · show XR.lt (fin 0) (fin eps) = true; simpa [XR.lt] using hep
  · show XR.lt (fin 1) (fin eps) = false; simpa [XR.lt] using he1.le
  · show XR.lt (fin 0) (fin 1) = true; simp [XR.lt]
  · show XR.lt (fin 1) (fin 0) = false; simp [XR.lt]
  · show XR.lt (fin 1) (fin 2) = true; simp [XR.lt]
  · show XR.lt (fin 2) (fin 1) = false; simp [XR.lt]
  · apply Subtype.ext
    show (F64.rnd R (XR.add (fin 0) (Arith.div Arith.one Arith.one : F64 R).1)).1 = fin 1
    rw [hdiv]; simp only [XR.add, F64.rnd, zero_add]; exact r1
  · apply Subtype.ext
    show (F64.rnd R (XR.add (fin 1) (Arith.div Arith.one Arith.one : F64 R).1)).1 = fin 2
    rw [hdiv]; simp only [XR.add, F64.rnd, one_add_one_eq_two]; exact r2
  · show XR.le (XR.abs (F64.rnd R (XR.add pinf (XR.neg (fin 1)))).1) E.1 = false
    rw [hE]; rfl
  · rfl
  · by_contra hc
    have h1 := (F64.margin_laws R).margin_lt Arith.one Arith.one ((Bool.not_eq_false _).mp hc)
    have h2 : XR.lt (fin 1) (fin 1) = true := h1
    simp [XR.lt] at h2
  · show XR.lt (R.rd (2 + eps)) pinf = true
    have r3 : R.rd 3 = fin 3 := R.exact 3 (by have := isDouble_nat (n := 3) (by norm_num); simpa using this)
    have h1 := R.mono (2 + eps) 3 (by linarith)
    rw [r3] at h1
    rcases R.mem (2 + eps) with ⟨s, _, hs⟩ | hs | hs
    · rw [hs]; rfl
    · rw [hs] at h1; simp [XR.le] at h1
    · rw [hs]; rfl
end FIM

/-- non-vacuity: rounding to nearest, a 2 x 2 map with one obstacle, the default threshold: all hypotheses hold, the run ends after 6 steps, the error allowed is below
`1e-6`, and the exact solution exists -/
example : ∃ (g : Grid (F64 Rounding.nearest)) (v : Nat → ℝ) (A : ℝ) (I : DInput [2,2] g 1 v [0] 1 1 A) (E : F64 Rounding.nearest), E.1 = .fin 0 ∧ Fresh g ∧
    StartsApart [2,2] g [0] ∧ g.occ 1 = true ∧ 2 * 1 * ((2 * 6 : Nat) + (([2,2] : List Nat).prod : ℝ)) ≤ A ∧ stopErr 2 1 A 0 < 1 / 10^6 ∧
    (∃ U, I.X.problem.IsSolution U) ∧ ∃ s, Steps (FIM.Step E noGoal eikS) 6 (FIM.init g [] [0]) s ∧ FIM.Done s ∧ (s.g.value 3).1 = .fin 2 := by
  set g : Grid (F64 Rounding.nearest) := FIM.crossMap Arith.one Arith.zero Arith.one Arith.one with hg
  have hep := eps_pos
  have occ1 : g.occ 1 = true := by
    show XR.lt (fin 0) (fin eps) = true
    simpa [XR.lt] using hep
  have X : XInput [2,2] (gridX g) 1 (fun _ => 1) [0] := by
    refine ⟨⟨by decide, by decide, by decide⟩, by decide, rfl, by decide, one_pos, rfl, ?_⟩
    intro i hi ho
    have h4 : i = 0 ∨ i = 1 ∨ i = 2 ∨ i = 3 := by
      have : i < 4 := hi
      omega
    rcases h4 with rfl | rfl | rfl | rfl
    · rfl
    · exact absurd (show g.occ 1 = false from ho) (by rw [occ1]; simp)
    · rfl
    · rfl
  have b1 : (2:ℝ)^(-200:ℤ) ≤ 1 := by
    have : (2:ℝ)^(-200:ℤ) ≤ (2:ℝ)^(0:ℤ) := zpow_le_zpow_right₀ (by norm_num) (by norm_num)
    simpa using this
  have b2 : (1:ℝ) ≤ (2:ℝ)^(200:ℤ) := by
    have : (2:ℝ)^(0:ℤ) ≤ (2:ℝ)^(200:ℤ) := zpow_le_zpow_right₀ (by norm_num) (by norm_num)
    simpa using this
  have b3 : (32:ℝ) ≤ (2:ℝ)^(300:ℤ) := by
    have : (2:ℝ)^(5:ℤ) ≤ (2:ℝ)^(300:ℤ) := zpow_le_zpow_right₀ (by norm_num) (by norm_num)
    refine le_trans ?_ this
    norm_num
  have I : DInput [2,2] g 1 (fun _ => 1) [0] 1 1 32 := by
    refine ⟨X, b1, b2, fun _ _ _ => b2, one_pos, fun _ _ _ => by norm_num, fun _ _ _ => by norm_num, by norm_num, by norm_num, b3, ?_, ?_⟩
    · show 640 * ((2:ℕ):ℝ)^4 * uu * 32^2 ≤ 1^2
      unfold uu; norm_num
    · unfold XR.eps; norm_num
  have hap : StartsApart [2,2] g [0] := by
    intro i hi j hj _ hadj
    simp only [List.mem_singleton] at hi hj
    subst hi; subst hj
    obtain ⟨k, h0, h1, h2, h3⟩ := hadj
    have h4 : k = 0 ∨ k = 1 := by
      have : k < 2 := h1
      omega
    rcases h4 with rfl | rfl <;> revert h2 <;> decide
  obtain ⟨U, hU, _⟩ := C17_unique_solution X.problem X.wellPosed
  obtain ⟨s, h1, h2, h3⟩ := FIM.chain_ends (FIM.chain64 Rounding.nearest Arith.zero (e := 0) rfl (le_refl _)) noGoal (by decide)
  refine ⟨g, fun _ => 1, 32, I, Arith.zero, rfl, ⟨?_, ?_, ?_⟩, hap, occ1, by norm_num, ?_, ⟨U, hU⟩, s, h1, h2, by rw [h3]⟩
  · intro i; rfl
  · intro i; rfl
  · intro i; rfl
  · unfold stopErr relErr; norm_num
end FMV
