import Verif.Props.GMMF64
import Verif.Props.FIMTerm
/-
C92: FIM in doubles.  `solveEikonal(x)` ignores neighbours that are not earlier than the present time of `x`; FIM stores its result whatever it is.  When rounding makes the
two-dimensional solution not later than the later of the two neighbours, the next evaluation ignores that neighbour and gives the one-dimensional solution, the one after that
takes it into account again, and so on: the cell never converges.
-/
namespace FMV
open Arith Spec Shape
variable {F : Type} [Arith F]
namespace FIM
open FMM (Steps)

/-- The map of the counterexample: 2 x 2 cells of size `h`, start in cell 0, cells of speeds `vA`, `vB` beside it, the cell of speed `vC` in the opposite corner. -/
def crossMap (h vA vB vC : F) : Grid F :=
  { Grid.create [2,2] h (0,0) with cells := fun i =>
      { value := inf, occupancy := if i = 1 then vA else if i = 2 then vB else if i = 3 then vC else one, hValue := zero, state := .opn, bucket := 0, index := i } }

/-- What the arithmetic must do: the times beside the start are `T2` (cell 1) and `T1` (cell 2); the one-dimensional solution in the corner is `u1`, later than `T2` by
at least the margin; the two-dimensional solution is `u2`, not later than `T2`. -/
structure Flips (h vA vB vC T1 T2 u1 u2 E : F) : Prop where
  f0 : lt (one : F) margin = false
  fA : lt vA margin = false
  fB : lt vB margin = false
  fC : lt vC margin = false
  i0 : isInf (zero : F) = false
  ii : isInf (inf : F) = true
  n1 : isInf T1 = false
  n2 : isInf T2 = false
  nu : isInf u2 = false
  zi : lt (zero : F) inf = true
  z1 : lt (zero : F) T1 = true
  z2 : lt (zero : F) T2 = true
  p1 : lt T1 zero = false
  p2 : lt T2 zero = false
  e1 : add zero (div h vB) = T1
  e2 : add zero (div h vA) = T2
  l1 : lt T1 inf = true
  l2 : lt T2 inf = true
  l21 : lt T2 T1 = false
  l1u : lt T1 u1 = true
  l2u : lt T2 u1 = true
  l1w : lt T1 u2 = true
  l2w : lt T2 u2 = false
  lw1 : lt u2 T1 = false
  eu1 : add T1 (div h vC) = u1
  mg : lt (sub u1 T2) margin = false
  eu2 : solveND h vC [T1, T2] 2 = u2
  c1 : le (abs (sub inf T1)) E = false
  c2 : le (abs (sub inf T2)) E = false
  d1 : le (abs (sub T1 T1)) E = true
  d2 : le (abs (sub T2 T2)) E = true
  c3 : le (abs (sub u1 u2)) E = false
  c4 : le (abs (sub u2 u1)) E = false
  b0 : better (inf : F) zero = false
  b3 : better u2 inf = true

variable {h vA vB vC T1 T2 u1 u2 E : F}

private theorem fits22 : Fits [2,2] (2^31+1) := ⟨by decide, by decide, by decide⟩
private theorem r2 : List.range (Shape.mk' [2,2]).ndims = [0, 1] := by decide

/-- the minima over the two dimensions -/
theorem min22 {g : Grid F} (hs : g.shape = Shape.mk' [2,2]) :
    (g.minDim 0 0 = g.value 1 ∧ g.minDim 0 1 = g.value 2) ∧ (g.minDim 1 0 = g.value 0 ∧ g.minDim 1 1 = g.value 3) ∧
    (g.minDim 2 0 = g.value 3 ∧ g.minDim 2 1 = g.value 0) ∧ (g.minDim 3 0 = g.value 2 ∧ g.minDim 3 1 = g.value 1) := by
  unfold Grid.minDim
  rw [hs, show (Shape.mk' [2,2]).nbrsDim 0 0 = [1] by decide, show (Shape.mk' [2,2]).nbrsDim 0 1 = [2] by decide,
    show (Shape.mk' [2,2]).nbrsDim 1 0 = [0] by decide, show (Shape.mk' [2,2]).nbrsDim 1 1 = [3] by decide,
    show (Shape.mk' [2,2]).nbrsDim 2 0 = [3] by decide, show (Shape.mk' [2,2]).nbrsDim 2 1 = [0] by decide,
    show (Shape.mk' [2,2]).nbrsDim 3 0 = [2] by decide, show (Shape.mk' [2,2]).nbrsDim 3 1 = [1] by decide]
  exact ⟨⟨rfl, rfl⟩, ⟨rfl, rfl⟩, ⟨rfl, rfl⟩, rfl, rfl⟩

theorem eik22 {g : Grid F} (hs : g.shape = Shape.mk' [2,2]) {i : Nat} (hi : i < 4) :
    (eikS g i).1 = solveList g.leaf (g.vel i) ([g.minDim i 0, g.minDim i 1].filter (fun t => !(isInf t) && lt t (g.value i))) := by
  rw [eikS_eq_solve fits22 (by decide) hs (by simpa using hi)]
  unfold solveEikonal usable
  rw [hs, r2]
  rfl

/-- the values and states at some moment -/
structure At (h vA vB vC : F) (t1 t2 t3 : F) (s1 s2 s3 : FMState) (g : Grid F) : Prop where
  map : SameMap (crossMap h vA vB vC) g
  v0 : g.value 0 = zero
  v1 : g.value 1 = t1
  v2 : g.value 2 = t2
  v3 : g.value 3 = t3
  k0 : g.state 0 = .frozen
  k1 : g.state 1 = s1
  k2 : g.state 2 = s2
  k3 : g.state 3 = s3

variable {t1 t2 t3 : F} {s1 s2 s3 : FMState} {g : Grid F}

theorem At.facts (A : Flips h vA vB vC T1 T2 u1 u2 E) (S : At h vA vB vC t1 t2 t3 s1 s2 s3 g) :
    (g.occ 0 = false ∧ g.occ 1 = false ∧ g.occ 2 = false ∧ g.occ 3 = false) ∧ (g.vel 1 = vA ∧ g.vel 2 = vB ∧ g.vel 3 = vC) ∧ g.leaf = h ∧
    g.shape = Shape.mk' [2,2] := by
  refine ⟨⟨?_, ?_, ?_, ?_⟩, ⟨?_, ?_, ?_⟩, S.map.leaf, S.map.shape⟩
  · rw [SameMap.occ_eq S.map]; exact A.f0
  · rw [SameMap.occ_eq S.map]; exact A.fA
  · rw [SameMap.occ_eq S.map]; exact A.fB
  · rw [SameMap.occ_eq S.map]; exact A.fC
  · rw [SameMap.vel_eq S.map]; rfl
  · rw [SameMap.vel_eq S.map]; rfl
  · rw [SameMap.vel_eq S.map]; rfl

theorem At.eik1 (A : Flips h vA vB vC T1 T2 u1 u2 E) (S : At h vA vB vC t1 t2 inf s1 s2 s3 g) (h1 : t1 = inf ∨ t1 = T2) : (eikS g 1).1 = T2 := by
  obtain ⟨_, ⟨w1, _, _⟩, lf, sh⟩ := S.facts A
  rw [eik22 sh (by decide), (min22 sh).2.1.1, (min22 sh).2.1.2, S.v0, S.v3, S.v1, lf, w1]
  have e : ([zero, inf].filter (fun t : F => !(isInf t) && lt t t1)) = [zero] := by
    rcases h1 with rfl | rfl <;> simp [A.i0, A.ii, A.zi, A.z2]
  rw [e]
  exact A.e2

theorem At.eik2 (A : Flips h vA vB vC T1 T2 u1 u2 E) (S : At h vA vB vC t1 t2 t3 s1 s2 s3 g) (h2 : t2 = inf ∧ t3 = inf ∨ t2 = T1 ∧ (t3 = inf ∨ t3 = u2)) :
    (eikS g 2).1 = T1 := by
  obtain ⟨_, ⟨_, w2, _⟩, lf, sh⟩ := S.facts A
  rw [eik22 sh (by decide), (min22 sh).2.2.1.1, (min22 sh).2.2.1.2, S.v0, S.v3, S.v2, lf, w2]
  have e : ([t3, zero].filter (fun t : F => !(isInf t) && lt t t2)) = [zero] := by
    rcases h2 with ⟨rfl, rfl⟩ | ⟨rfl, rfl | rfl⟩ <;> simp [A.i0, A.ii, A.zi, A.z1, A.lw1]
  rw [e]
  exact A.e1

theorem At.eik0 (A : Flips h vA vB vC T1 T2 u1 u2 E) (S : At h vA vB vC T2 T1 t3 s1 s2 s3 g) : (eikS g 0).1 = inf := by
  obtain ⟨_, _, lf, sh⟩ := S.facts A
  rw [eik22 sh (by decide), (min22 sh).1.1, (min22 sh).1.2, S.v0, S.v1, S.v2]
  simp [A.p1, A.p2, solveList]

/-- with the later neighbour -/
theorem At.eik3_two (A : Flips h vA vB vC T1 T2 u1 u2 E) (S : At h vA vB vC T2 T1 t3 s1 s2 s3 g) (h3 : t3 = inf ∨ t3 = u1) : (eikS g 3).1 = u2 := by
  obtain ⟨_, ⟨_, _, w3⟩, lf, sh⟩ := S.facts A
  rw [eik22 sh (by decide), (min22 sh).2.2.2.1, (min22 sh).2.2.2.2, S.v1, S.v2, S.v3, lf, w3]
  have e : ([T1, T2].filter (fun t : F => !(isInf t) && lt t t3)) = [T1, T2] := by
    rcases h3 with rfl | rfl <;> simp [A.n1, A.n2, A.l1, A.l2, A.l1u, A.l2u]
  rw [e]
  simp only [solveList, sortF, insertF, A.l21, Bool.false_eq_true, if_false, List.length_cons, List.length_nil]
  show eikLoop h vC [T1, T2] 1 1 = u2
  have u : solveND h vC [T1, T2] 1 = u1 := A.eu1
  simp only [eikLoop, u, List.getD_cons_succ, List.getD_cons_zero, A.mg, Bool.false_eq_true, if_false]
  exact A.eu2

/-- without it -/
theorem At.eik3_one (A : Flips h vA vB vC T1 T2 u1 u2 E) (S : At h vA vB vC T2 T1 u2 s1 s2 s3 g) : (eikS g 3).1 = u1 := by
  obtain ⟨_, ⟨_, _, w3⟩, lf, sh⟩ := S.facts A
  rw [eik22 sh (by decide), (min22 sh).2.2.2.1, (min22 sh).2.2.2.2, S.v1, S.v2, S.v3, lf, w3]
  have e : ([T1, T2].filter (fun t : F => !(isInf t) && lt t u2)) = [T1] := by simp [A.n1, A.n2, A.l1w, A.l2w]
  rw [e]
  exact A.eu1

/-- The corner is the only active cell, its time is one of the two solutions. -/
def Flip (h vA vB vC T1 T2 u1 u2 : F) (s : St F) : Prop :=
  ∃ t3, (t3 = u1 ∨ t3 = u2) ∧ At h vA vB vC T2 T1 t3 .frozen .frozen .narrow s.g ∧ s.stop = false ∧ (s.before = [3] ∧ s.after = [] ∨ s.before = [] ∧ s.after = [3])

theorem Flip.next (A : Flips h vA vB vC T1 T2 u1 u2 E) (goal : Nat) {s : St F} (S : Flip h vA vB vC T1 T2 u1 u2 s) :
    Flip h vA vB vC T1 T2 u1 u2 (next E goal eikS s) := by
  obtain ⟨t3, ht, S, hst, ⟨hb, ha⟩ | ⟨hb, ha⟩⟩ := S
  · unfold FIM.next
    simp only [ha, hb]
    exact ⟨t3, ht, S, hst, .inr ⟨rfl, rfl⟩⟩
  · unfold FIM.next
    simp only [ha]
    unfold visit
    dsimp only
    have key : ∃ t3', (t3' = u1 ∨ t3' = u2) ∧ (eikS s.g 3).1 = t3' ∧ le (abs (sub t3 t3')) E = false := by
      rcases ht with rfl | rfl
      · exact ⟨u2, .inr rfl, S.eik3_two A (.inr rfl), A.c3⟩
      · exact ⟨u1, .inl rfl, S.eik3_one A, A.c4⟩
    obtain ⟨t3', h1, h2, h3⟩ := key
    rw [S.v3, h2, h3]
    simp only [Bool.false_eq_true, if_false]
    refine ⟨t3', h1, ?_, hst, .inl ⟨by rw [hb]; rfl, rfl⟩⟩
    refine ⟨(S.map.trans (sameMap_setScratch _ _)).trans (sameMap_setValue _ _ _), ?_, ?_, ?_, ?_, ?_, ?_, ?_, ?_⟩
    · simp [Grid.value_setValue, S.v0]
    · simp [Grid.value_setValue, S.v1]
    · simp [Grid.value_setValue, S.v2]
    · simp [Grid.value_setValue]
    · simp [S.k0]
    · simp [S.k1]
    · simp [S.k2]
    · simp [S.k3]

theorem Flip.notDone {s : St F} (S : Flip h vA vB vC T1 T2 u1 u2 s) : ¬ Done s := by
  obtain ⟨t3, ht, S, hst, ⟨hb, ha⟩ | ⟨hb, ha⟩⟩ := S
  · rintro ⟨_, h | h⟩
    · rw [hst] at h; cases h
    · rw [hb] at h; cases h
  · rintro ⟨h, _⟩; rw [ha] at h; cases h

/-- a visit that does not converge -/
theorem visit_no {E : F} {goal : Nat} {s : St F} {x : Nat} {rest : List Nat} {p q : F} (hp : s.g.value x = p) (hq : (eikS s.g x).1 = q) (hc : le (abs (sub p q)) E = false) :
    visit E goal eikS s x rest = { s with g := (s.g.setScratch (eikS s.g x).2).setValue x q, before := s.before ++ [x], after := rest } := by
  unfold visit
  dsimp only
  rw [hp, hq, hc]
  rfl

theorem At.set {i : Nat} {t : F} {scr : Nat × Nat} (S : At h vA vB vC t1 t2 t3 s1 s2 s3 g) (hi : i ≠ 0) :
    At h vA vB vC (if 1 = i then t else t1) (if 2 = i then t else t2) (if 3 = i then t else t3) s1 s2 s3 ((g.setScratch scr).setValue i t) := by
  refine ⟨(S.map.trans (sameMap_setScratch _ _)).trans (sameMap_setValue _ _ _), ?_, ?_, ?_, ?_, ?_, ?_, ?_, ?_⟩
  · rw [Grid.value_setValue, if_neg (Ne.symm hi)]; exact S.v0
  · rw [Grid.value_setValue]; split
    · rfl
    · exact S.v1
  · rw [Grid.value_setValue]; split
    · rfl
    · exact S.v2
  · rw [Grid.value_setValue]; split
    · rfl
    · exact S.v3
  · simp [S.k0]
  · simp [S.k1]
  · simp [S.k2]
  · simp [S.k3]

theorem At.scratch (S : At h vA vB vC t1 t2 t3 s1 s2 s3 g) (scr : Nat × Nat) : At h vA vB vC t1 t2 t3 s1 s2 s3 (g.setScratch scr) :=
  ⟨S.map.trans (sameMap_setScratch _ _), S.v0, S.v1, S.v2, S.v3, S.k0, S.k1, S.k2, S.k3⟩

theorem At.mark {i : Nat} {k : FMState} (S : At h vA vB vC t1 t2 t3 s1 s2 s3 g) (hi : i ≠ 0) :
    At h vA vB vC t1 t2 t3 (if 1 = i then k else s1) (if 2 = i then k else s2) (if 3 = i then k else s3) (g.setState i k) := by
  refine ⟨S.map.trans (sameMap_setState _ _ _), ?_, ?_, ?_, ?_, ?_, ?_, ?_, ?_⟩
  · simp [S.v0]
  · simp [S.v1]
  · simp [S.v2]
  · simp [S.v3]
  · rw [Grid.state_setState, if_neg (Ne.symm hi)]; exact S.k0
  · rw [Grid.state_setState]; split
    · rfl
    · exact S.k1
  · rw [Grid.state_setState]; split
    · rfl
    · exact S.k2
  · rw [Grid.state_setState]; split
    · rfl
    · exact S.k3

/-- nothing happens to the start -/
theorem test0 (A : Flips h vA vB vC T1 T2 u1 u2 E) {s : St F} (S : At h vA vB vC T2 T1 t3 s1 s2 s3 s.g) :
    testNbr eikS s 0 = { s with g := s.g.setScratch (eikS s.g 0).2 } := by
  obtain ⟨⟨o0, _⟩, _⟩ := S.facts A
  unfold testNbr
  rw [if_neg (by rw [S.k0, o0]; simp)]
  dsimp only
  rw [S.eik0 A, S.v0, A.b0]
  rfl

/-- **Finding** (C92), any arithmetic: if rounding makes the two-dimensional solution not later than the later neighbour, FIM never ends. -/
theorem flips_never_ends (A : Flips h vA vB vC T1 T2 u1 u2 E) (goal : Nat) (hg1 : goal ≠ 1) (hg2 : goal ≠ 2) (n : Nat) (s : St F)
    (hs : Steps (Step E goal eikS) n (init (crossMap h vA vB vC) [] [0]) s) : ¬ Done s := by
  have n0 : (Shape.mk' [2,2]).nbrs 0 = [1, 2] := by decide
  have n1 : (Shape.mk' [2,2]).nbrs 1 = [0, 3] := by decide
  have n2 : (Shape.mk' [2,2]).nbrs 2 = [3, 0] := by decide
  -- the initialisation
  have i0 : ∃ g, init (crossMap h vA vB vC) [] [0] = ⟨g, [1, 2], [], false⟩ ∧ At h vA vB vC inf inf inf .narrow .narrow .opn g := by
    unfold init
    simp only [List.foldl_cons, List.foldl_nil]
    unfold initPoint
    rw [show (crossMap h vA vB vC).shape.nbrs 0 = [1, 2] from n0]
    simp only [List.foldl_cons, List.foldl_nil]
    set g1 := (Grid.setState ((crossMap h vA vB vC).setValue 0 zero) 0 .frozen) with hg1
    have S1 : At h vA vB vC inf inf inf .opn .opn .opn g1 := by
      refine ⟨(sameMap_setValue _ _ _).trans (sameMap_setState _ _ _), ?_, ?_, ?_, ?_, ?_, ?_, ?_, ?_⟩
      · rw [hg1, Grid.value_setState, Grid.value_setValue, if_pos rfl]
      · rw [hg1, Grid.value_setState, Grid.value_setValue, if_neg (by decide)]; rfl
      · rw [hg1, Grid.value_setState, Grid.value_setValue, if_neg (by decide)]; rfl
      · rw [hg1, Grid.value_setState, Grid.value_setValue, if_neg (by decide)]; rfl
      · rw [hg1, Grid.state_setState, if_pos rfl]
      · rw [hg1, Grid.state_setState, if_neg (by decide), Grid.state_setValue]; rfl
      · rw [hg1, Grid.state_setState, if_neg (by decide), Grid.state_setValue]; rfl
      · rw [hg1, Grid.state_setState, if_neg (by decide), Grid.state_setValue]; rfl
    obtain ⟨⟨_, o1, _, _⟩, _⟩ := S1.facts A
    have e1 : initNbr (g1, []) 1 = (g1.setState 1 .narrow, [1]) := by
      unfold initNbr; rw [if_pos ⟨S1.k1, o1⟩]; rfl
    have S2 := S1.mark (i := 1) (k := .narrow) (by decide)
    simp only [if_true, show ¬ (2 = 1) by decide, show ¬ (3 = 1) by decide, if_false] at S2
    obtain ⟨⟨_, _, o2, _⟩, _⟩ := S2.facts A
    have e2 : initNbr (g1.setState 1 .narrow, [1]) 2 = ((g1.setState 1 .narrow).setState 2 .narrow, [1, 2]) := by
      unfold initNbr; rw [if_pos ⟨S2.k2, o2⟩]; rfl
    have S3 := S2.mark (i := 2) (k := .narrow) (by decide)
    simp only [if_true, show ¬ (1 = 2) by decide, show ¬ (3 = 2) by decide, if_false] at S3
    rw [e1, e2]
    exact ⟨_, rfl, S3⟩
  obtain ⟨ga, ea, Sa⟩ := i0
  -- first pass
  have eb : next E goal eikS ⟨ga, [1, 2], [], false⟩ = ⟨ga, [], [1, 2], false⟩ := rfl
  have ic : ∃ g, next E goal eikS ⟨ga, [], [1, 2], false⟩ = ⟨g, [1], [2], false⟩ ∧ At h vA vB vC T2 inf inf .narrow .narrow .opn g := by
    refine ⟨_, visit_no Sa.v1 (Sa.eik1 A (.inl rfl)) A.c2, ?_⟩
    simpa using Sa.set (i := 1) (t := T2) (scr := (eikS ga 1).2) (by decide)
  obtain ⟨gc, ec, Sc⟩ := ic
  have id' : ∃ g, next E goal eikS ⟨gc, [1], [2], false⟩ = ⟨g, [1, 2], [], false⟩ ∧ At h vA vB vC T2 T1 inf .narrow .narrow .opn g := by
    refine ⟨_, visit_no Sc.v2 (Sc.eik2 A (.inl ⟨rfl, rfl⟩)) A.c1, ?_⟩
    simpa using Sc.set (i := 2) (t := T1) (scr := (eikS gc 2).2) (by decide)
  obtain ⟨gd, ed, Sd⟩ := id'
  -- second pass
  have ee : next E goal eikS ⟨gd, [1, 2], [], false⟩ = ⟨gd, [], [1, 2], false⟩ := rfl
  have if' : ∃ g, next E goal eikS ⟨gd, [], [1, 2], false⟩ = ⟨g, [3], [2], false⟩ ∧ At h vA vB vC T2 T1 u2 .frozen .narrow .narrow g := by
    show ∃ g, visit E goal eikS ⟨gd, [], [1, 2], false⟩ 1 [2] = _ ∧ _
    unfold visit
    dsimp only
    rw [Sd.v1, Sd.eik1 A (.inr rfl), if_pos A.d2]
    have S1 := Sd.set (i := 1) (t := T2) (scr := (eikS gd 1).2) (by decide)
    simp only [if_true, show ¬ (2 = 1) by decide, show ¬ (3 = 1) by decide, if_false] at S1
    rw [S1.map.shape, show (crossMap h vA vB vC).shape.nbrs 1 = [0, 3] from n1]
    simp only [List.foldl_cons, List.foldl_nil]
    rw [test0 A S1]
    dsimp only
    have S2 := S1.scratch (eikS ((gd.setScratch (eikS gd 1).2).setValue 1 T2) 0).2
    generalize ((gd.setScratch (eikS gd 1).2).setValue 1 T2).setScratch (eikS ((gd.setScratch (eikS gd 1).2).setValue 1 T2) 0).2 = g2 at S2 ⊢
    obtain ⟨⟨_, _, _, o3⟩, _⟩ := S2.facts A
    unfold testNbr
    dsimp only
    rw [if_neg (by rw [S2.k3, o3]; simp), S2.eik3_two A (.inl rfl), S2.v3, if_pos A.b3]
    dsimp only
    rw [if_neg (Ne.symm hg1)]
    refine ⟨_, rfl, ?_⟩
    have S3 := ((S2.set (i := 3) (t := u2) (scr := (eikS g2 3).2) (by decide)).mark (i := 3) (k := .narrow) (by decide)).mark (i := 1) (k := .frozen) (by decide)
    simpa using S3
  obtain ⟨gf, ef, Sf⟩ := if'
  have ig : Flip h vA vB vC T1 T2 u1 u2 (next E goal eikS ⟨gf, [3], [2], false⟩) := by
    show Flip h vA vB vC T1 T2 u1 u2 (visit E goal eikS ⟨gf, [3], [2], false⟩ 2 [])
    unfold visit
    dsimp only
    rw [Sf.v2, Sf.eik2 A (.inr ⟨rfl, .inr rfl⟩), if_pos A.d1]
    have S1 := Sf.set (i := 2) (t := T1) (scr := (eikS gf 2).2) (by decide)
    simp only [if_true, show ¬ (1 = 2) by decide, show ¬ (3 = 2) by decide, if_false] at S1
    rw [S1.map.shape, show (crossMap h vA vB vC).shape.nbrs 2 = [3, 0] from n2]
    simp only [List.foldl_cons, List.foldl_nil]
    have e3 : testNbr eikS ⟨(gf.setScratch (eikS gf 2).2).setValue 2 T1, [3], [2], false⟩ 3 = ⟨(gf.setScratch (eikS gf 2).2).setValue 2 T1, [3], [2], false⟩ := by
      unfold testNbr; exact if_pos (.inl S1.k3)
    rw [e3, test0 A S1, if_neg (Ne.symm hg2)]
    refine ⟨u2, .inr rfl, ?_, rfl, .inl ⟨rfl, rfl⟩⟩
    have S3 := (S1.scratch (eikS ((gf.setScratch (eikS gf 2).2).setValue 2 T1) 0).2).mark (i := 2) (k := .frozen) (by decide)
    simpa using S3
  have key : s = ⟨ga, [1, 2], [], false⟩ ∨ s = ⟨ga, [], [1, 2], false⟩ ∨ s = ⟨gc, [1], [2], false⟩ ∨ s = ⟨gd, [1, 2], [], false⟩ ∨ s = ⟨gd, [], [1, 2], false⟩ ∨
      s = ⟨gf, [3], [2], false⟩ ∨ Flip h vA vB vC T1 T2 u1 u2 s := by
    rw [ea] at hs
    refine Steps.inv (I := fun s => s = ⟨ga, [1, 2], [], false⟩ ∨ s = ⟨ga, [], [1, 2], false⟩ ∨ s = ⟨gc, [1], [2], false⟩ ∨ s = ⟨gd, [1, 2], [], false⟩ ∨
      s = ⟨gd, [], [1, 2], false⟩ ∨ s = ⟨gf, [3], [2], false⟩ ∨ Flip h vA vB vC T1 T2 u1 u2 s) ?_ hs (.inl rfl)
    rintro a b (rfl | rfl | rfl | rfl | rfl | rfl | ha) ⟨_, rfl⟩
    · exact .inr (.inl eb)
    · exact .inr (.inr (.inl ec))
    · exact .inr (.inr (.inr (.inl ed)))
    · exact .inr (.inr (.inr (.inr (.inl ee))))
    · exact .inr (.inr (.inr (.inr (.inr (.inl ef)))))
    · exact .inr (.inr (.inr (.inr (.inr (.inr ig)))))
    · exact .inr (.inr (.inr (.inr (.inr (.inr (ha.next A goal))))))
  rcases key with rfl | rfl | rfl | rfl | rfl | rfl | h
  · rintro ⟨_, h | h⟩ <;> cases h
  · rintro ⟨h, _⟩; cases h
  · rintro ⟨h, _⟩; cases h
  · rintro ⟨_, h | h⟩ <;> cases h
  · rintro ⟨h, _⟩; cases h
  · rintro ⟨h, _⟩; cases h
  · exact h.notDone

/-! ### the counterexample in doubles -/

/-- rounding to nearest: a number less than half a unit in the last place away from a double with a 53-bit significand -/
theorem nearest_rd {x y : ℝ} (m : ℤ) (k : ℕ) (hy : y = m / 2^k) (hm1 : 2^52 < m) (hm2 : m < 2^53) (hk : k ≤ 1074) (h1 : y - 1 / 2^(k+1) < x) (h2 : x < y + 1 / 2^(k+1)) :
    Rounding.nearest.rd x = .fin y := by
  have hkp : (0:ℝ) < 2^k := by positivity
  have yd : IsDouble y := ⟨m, -k, by rw [abs_of_pos (by omega)]; exact hm2, by omega, by omega, by rw [hy, zpow_neg, zpow_natCast]; rfl⟩
  have hhalf : (1:ℝ) / 2^(k+1) = 1 / 2^k / 2 := by rw [pow_succ]; field_simp
  have hx : |x - y| < 1 / 2^k / 2 := by rw [← hhalf]; exact abs_lt.2 ⟨by linarith, by linarith⟩
  have hm1R : (2:ℝ)^52 + 1 ≤ m := by
    have : (2:ℤ)^52 + 1 ≤ m := by omega
    exact_mod_cast this
  have hm2R : (m:ℝ) ≤ 2^53 - 1 := by
    have : m ≤ (2:ℤ)^53 - 1 := by omega
    exact_mod_cast this
  have hinv : (0:ℝ) < 1 / 2^k := by positivity
  have hinv1 : (1:ℝ) / 2^k ≤ 1 := by rw [div_le_one hkp]; exact one_le_pow₀ (by norm_num)
  have hyv : y = m * (1 / 2^k) := by rw [hy]; ring
  have hxb := abs_lt.1 hx
  have hbig : |x| < overflow := by
    have h60 := IsDouble.lt_overflow (IsDouble.pow (e := 60) (by norm_num) (by norm_num))
    rw [abs_of_pos (by positivity)] at h60
    refine lt_trans ?_ h60
    have : y ≤ (2^53 - 1) * 1 := by rw [hyv]; exact mul_le_mul hm2R hinv1 hinv.le (by norm_num)
    have y0 : 0 ≤ y := by rw [hyv]; exact mul_nonneg (by linarith [show (0:ℝ) ≤ 2^52 by positivity]) hinv.le
    have e60 : (2:ℝ)^(60:ℤ) = 1152921504606846976 := by norm_num
    rw [e60, abs_lt]
    constructor
    · norm_num at this ⊢; linarith [hxb.1]
    · norm_num at this ⊢; linarith [hxb.2]
  have hb := abs_lt.1 hbig
  show rdNearest x = _
  unfold rdNearest
  rw [if_neg (by linarith [hb.2]), if_neg (by linarith [hb.1])]
  congr 1
  have hn := nearestDouble_le x y yd
  obtain ⟨m', e, hm', he1, he2, heq⟩ := nearestDouble_mem x
  generalize nearestDouble x = s at *
  have hsx := abs_lt.1 (lt_of_le_of_lt hn hx)
  have hs1 : y - 1 / 2^k < s := by linarith [hsx.2, hxb.1]
  have hs2 : s < y + 1 / 2^k := by linarith [hsx.1, hxb.2]
  have hp : (0:ℝ) < (2:ℝ)^e := zpow_pos (by norm_num) _
  have hek : -(k:ℤ) ≤ e := by
    by_contra hc
    have h3 : (2:ℝ)^e ≤ (2:ℝ)^(-(k:ℤ) - 1) := zpow_le_zpow_right₀ (by norm_num) (by omega)
    have h4 : (2:ℝ)^(-(k:ℤ) - 1) = 1 / 2^k / 2 := by rw [zpow_sub₀ (by norm_num), zpow_neg, zpow_natCast]; simp [div_eq_mul_inv]
    rw [h4] at h3
    have hm'R : (m':ℝ) ≤ 2^53 := by exact_mod_cast (abs_lt.1 hm').2.le
    have h5 : s ≤ 2^53 * (1 / 2^k / 2) := by
      rw [heq]
      exact mul_le_mul hm'R h3 hp.le (by positivity)
    have h6 : (2^52 + 1) * (1 / 2^k) ≤ y := by rw [hyv]; exact mul_le_mul_of_nonneg_right hm1R hinv.le
    have e1 : (2:ℝ)^53 * (1 / 2^k / 2) = 2^52 * (1 / 2^k) := by ring
    rw [e1] at h5
    linarith
  obtain ⟨j, hj⟩ := Int.eq_ofNat_of_zero_le (show 0 ≤ e + k by omega)
  have hsi : s = ((m' * 2^j : ℤ) : ℝ) * (1 / 2^k) := by
    rw [heq, show e = (j:ℤ) + -(k:ℤ) by omega, zpow_add₀ (by norm_num), zpow_neg, zpow_natCast, zpow_natCast]
    push_cast
    rw [one_div]; ring
  rw [hsi, hyv] at hs1 hs2
  rw [hsi, hyv]
  congr 1
  have a1 : (m:ℝ) - 1 < ((m' * 2^j : ℤ) : ℝ) := by
    have : ((m:ℝ) - 1) * (1 / 2^k) < ((m' * 2^j : ℤ) : ℝ) * (1 / 2^k) := by linarith
    exact lt_of_mul_lt_mul_right this hinv.le
  have a2 : ((m' * 2^j : ℤ) : ℝ) < (m:ℝ) + 1 := by
    have : ((m' * 2^j : ℤ) : ℝ) * (1 / 2^k) < ((m:ℝ) + 1) * (1 / 2^k) := by linarith
    exact lt_of_mul_lt_mul_right this hinv.le
  have b1 : m - 1 < m' * 2^j := by exact_mod_cast a1
  have b2 : m' * 2^j < m + 1 := by exact_mod_cast a2
  have : m' * 2^j = m := by omega
  rw [this]

/-- the doubles of the example -/
theorem isd (m : ℤ) (k : ℕ) (h1 : |m| < 2^53 := by norm_num) (h2 : k ≤ 1074 := by norm_num) : IsDouble (m / 2^k) :=
  ⟨m, -k, h1, by omega, by omega, by rw [zpow_neg, zpow_natCast]; rfl⟩

section
variable {R : Rounding}

theorem dbl_mul {x y z : ℝ} (hx : IsDouble x) (hy : IsDouble y) (hz : IsDouble z) (h : R.rd (x * y) = .fin z) :
    (mul (GMM.dbl x hx) (GMM.dbl y hy) : F64 R) = GMM.dbl z hz := Subtype.ext (by show R.rd (x * y) = _; rw [h]; rfl)

theorem dbl_sub {x y z : ℝ} (hx : IsDouble x) (hy : IsDouble y) (hz : IsDouble z) (h : R.rd (x - y) = .fin z) :
    (sub (GMM.dbl x hx) (GMM.dbl y hy) : F64 R) = GMM.dbl z hz := Subtype.ext (by show R.rd (x + -y) = _; rw [← sub_eq_add_neg, h]; rfl)

theorem dbl_neg {x : ℝ} (hx : IsDouble x) : (neg (GMM.dbl x hx) : F64 R) = GMM.dbl (-x) hx.neg := rfl

theorem dbl_quot {x y z : ℝ} (hx : IsDouble x) (hy : IsDouble y) (hy0 : y ≠ 0) (hz : IsDouble z) (h : R.rd (x / y) = .fin z) :
    (div (GMM.dbl x hx) (GMM.dbl y hy) : F64 R) = GMM.dbl z hz := Subtype.ext (by
  show (F64.rnd R (XR.div (.fin x) (.fin y))).1 = _
  simp only [XR.div, if_neg hy0, F64.rnd]
  rw [h]; rfl)

theorem dbl_sqrt {x z : ℝ} (hx : IsDouble x) (hx0 : 0 ≤ x) (hz : IsDouble z) (h : Real.sqrt x = z) : (sqrt (GMM.dbl x hx) : F64 R) = GMM.dbl z hz := Subtype.ext (by
  show (F64.rnd R (XR.sqrt (.fin x))).1 = _
  simp only [XR.sqrt, if_neg (not_lt.2 hx0), F64.rnd]
  rw [h, R.exact z hz]; rfl)

theorem dbl_rat {p : ℤ} {z : ℝ} (hz : IsDouble z) (h : (p:ℝ) = z) : (ofRat p 1 : F64 R) = GMM.dbl z hz := Subtype.ext (by
  show R.rd ((p:ℝ) / ((1:ℕ):ℝ)) = _
  rw [Nat.cast_one, div_one, h, R.exact z hz]; rfl)

theorem dbl_congr {x y : ℝ} (hx : IsDouble x) (hy : IsDouble y) (h : x = y) : (GMM.dbl x hx : F64 R) = GMM.dbl y hy := by subst h; rfl

theorem dbl_lt {x y : ℝ} (hx : IsDouble x) (hy : IsDouble y) : lt (GMM.dbl x hx : F64 R) (GMM.dbl y hy) = decide (x < y) := rfl
end

private theorem jA : IsDouble ((2249602935817791:ℤ) / 2^61 : ℝ) := isd _ _
private theorem jB : IsDouble ((1:ℤ) / 2^10 : ℝ) := isd _ _
private theorem jC : IsDouble ((4294967295:ℤ) / 2^32 : ℝ) := isd _ _
private theorem jT1 : IsDouble ((1024:ℤ) / 2^0 : ℝ) := isd _ _
private theorem jT2 : IsDouble ((35218731827207:ℤ) / 2^35 : ℝ) := isd _ _
private theorem jc : IsDouble ((4294967297:ℤ) / 2^32 : ℝ) := isd _ _
private theorem ju1 : IsDouble ((4402341478401:ℤ) / 2^32 : ℝ) := isd _ _
private theorem ju2 : IsDouble ((70437463654407:ℤ) / 2^36 : ℝ) := isd _ _
private theorem jS : IsDouble ((70403103916039:ℤ) / 2^35 : ℝ) := isd _ _
private theorem jP : IsDouble ((1048576:ℤ) / 2^0 : ℝ) := isd _ _
private theorem jQ : IsDouble ((2256200007680897:ℤ) / 2^31 : ℝ) := isd _ _
private theorem jSS : IsDouble ((4507999821366145:ℤ) / 2^31 : ℝ) := isd _ _
private theorem jVV : IsDouble ((2147483647:ℤ) / 2^31 : ℝ) := isd _ _
private theorem jCC : IsDouble ((2147483649:ℤ) / 2^31 : ℝ) := isd _ _
private theorem jCq : IsDouble ((35218731827207:ℤ) / 2^24 : ℝ) := isd _ _
private theorem jb : IsDouble ((-70403103916039:ℤ) / 2^34 : ℝ) := isd _ _
private theorem jBB : IsDouble ((35218740215815:ℤ) / 2^21 : ℝ) := isd _ _
private theorem jAC : IsDouble ((35218731827207:ℤ) / 2^21 : ℝ) := isd _ _
private theorem j4 : IsDouble ((4:ℤ) / 2^0 : ℝ) := isd _ _
private theorem j8 : IsDouble ((8:ℤ) / 2^0 : ℝ) := isd _ _
private theorem j2 : IsDouble ((2:ℤ) / 2^0 : ℝ) := isd _ _
private theorem jm2 : IsDouble ((-2:ℤ) / 2^0 : ℝ) := isd _ _
private theorem jN : IsDouble ((70437463654407:ℤ) / 2^34 : ℝ) := isd _ _

private abbrev D := F64 Rounding.nearest

private theorem ex {x z : ℝ} (hz : IsDouble z) (h : x = z) : Rounding.nearest.rd x = .fin z := by rw [h]; exact Rounding.nearest.exact z hz

open GMM (dbl dbl_add) in
theorem two_dim : solveND (one : D) (dbl _ jC) [dbl _ jT1, dbl _ jT2] 2 = dbl _ ju2 := by
  unfold solveND
  rw [if_neg (by decide)]
  have z0 : (zero : D) = dbl 0 IsDouble.zero := rfl
  have o1 : (one : D) = dbl 1 IsDouble.one := rfl
  simp only [List.take_succ_cons, List.take_zero, List.foldl_cons, List.foldl_nil]
  have a1 : (add zero (dbl _ jT1) : D) = dbl _ jT1 := by rw [z0]; exact dbl_add _ _ _ (ex jT1 (by norm_num))
  have a2 : (add (dbl _ jT1) (dbl _ jT2) : D) = dbl _ jS := dbl_add _ _ _ (ex jS (by norm_num))
  have m1 : (mul (dbl _ jT1) (dbl _ jT1) : D) = dbl _ jP := dbl_mul _ _ _ (ex jP (by norm_num))
  have m2 : (mul (dbl _ jT2) (dbl _ jT2) : D) = dbl _ jQ := dbl_mul _ _ _ (nearest_rd 4512400015361794 32 (by norm_num) (by norm_num) (by norm_num) (by norm_num) (by norm_num) (by norm_num))
  have a3 : (add zero (dbl _ jP) : D) = dbl _ jP := by rw [z0]; exact dbl_add _ _ _ (ex jP (by norm_num))
  have a4 : (add (dbl _ jP) (dbl _ jQ) : D) = dbl _ jSS := dbl_add _ _ _ (ex jSS (by norm_num))
  have b1 : (ofRat (-2) 1 : D) = dbl _ jm2 := dbl_rat _ (by norm_num)
  have b2 : (mul (dbl _ jm2) (dbl _ jS) : D) = dbl _ jb := dbl_mul _ _ _ (ex jb (by norm_num))
  have h1 : (mul one one : D) = one := by rw [o1]; exact dbl_mul _ _ _ (ex IsDouble.one (by norm_num))
  have v1 : (mul (dbl _ jC) (dbl _ jC) : D) = dbl _ jVV := dbl_mul _ _ _ (nearest_rd 9007199250546688 53 (by norm_num) (by norm_num) (by norm_num) (by norm_num) (by norm_num) (by norm_num))
  have q1 : (div one (dbl _ jVV) : D) = dbl _ jCC := by rw [o1]; exact dbl_quot _ _ (by norm_num) _ (nearest_rd 4503599629467648 52 (by norm_num) (by norm_num) (by norm_num) (by norm_num) (by norm_num) (by norm_num))
  have s1 : (sub (dbl _ jSS) (dbl _ jCC) : D) = dbl _ jCq := dbl_sub _ _ _ (ex jCq (by norm_num))
  have m3 : (mul (dbl _ jb) (dbl _ jb) : D) = dbl _ jBB := dbl_mul _ _ _ (nearest_rd 4507998747624320 28 (by norm_num) (by norm_num) (by norm_num) (by norm_num) (by norm_num) (by norm_num))
  have f4 : (ofRat 4 1 : D) = dbl _ j4 := dbl_rat _ (by norm_num)
  have f2 : (ofRat 2 1 : D) = dbl _ j2 := dbl_rat _ (by norm_num)
  have n2 : (ofNat 2 : D) = dbl _ j2 := dbl_rat _ (by norm_num)
  have m4 : (mul (dbl _ j4) (dbl _ j2) : D) = dbl _ j8 := dbl_mul _ _ _ (ex j8 (by norm_num))
  have m5 : (mul (dbl _ j8) (dbl _ jCq) : D) = dbl _ jAC := dbl_mul _ _ _ (ex jAC (by norm_num))
  have s2 : (sub (dbl _ jBB) (dbl _ jAC) : D) = dbl _ j4 := dbl_sub _ _ _ (ex j4 (by norm_num))
  have r1 : (sqrt (dbl _ j4) : D) = dbl _ j2 := dbl_sqrt _ (by norm_num) _ (by
    rw [show (((4:ℤ) / 2^0 : ℝ)) = 2^2 by norm_num, Real.sqrt_sq (by norm_num)]; norm_num)
  have a5 : (add (neg (dbl _ jb)) (dbl _ j2) : D) = dbl _ jN := by rw [dbl_neg]; exact dbl_add _ _ _ (ex jN (by norm_num))
  have m6 : (mul (dbl _ j2) (dbl _ j2) : D) = dbl _ j4 := dbl_mul _ _ _ (ex j4 (by norm_num))
  have q2 : (div (dbl _ jN) (dbl _ j4) : D) = dbl _ ju2 := dbl_quot _ _ (by norm_num) _ (ex ju2 (by norm_num))
  have l0 : lt (dbl _ j4) (zero : D) = false := by rw [z0, dbl_lt]; norm_num
  simp only [a1, a2, m1, m2, a3, a4, b1, b2, h1, v1, q1, s1, m3, f4, n2, m4, m5, s2, l0, r1, a5, f2, m6, q2, Bool.false_eq_true, if_false]

open GMM (dbl dbl_add) in
/-- the example flips, for every threshold below `9 * 2^-36` (about 1.3e-10), in particular for the default threshold 0 -/
theorem flips (E : D) (e : ℝ) (hE : E.1 = .fin e) (he0 : 0 ≤ e) (he : e < 9 / 2^36) :
    Flips (one : D) (dbl _ jA) (dbl _ jB) (dbl _ jC) (dbl _ jT1) (dbl _ jT2) (dbl _ ju1) (dbl _ ju2) E := by
  have z0 : (zero : D) = dbl 0 IsDouble.zero := rfl
  have o1 : (one : D) = dbl 1 IsDouble.one := rfl
  have mg : (margin : D) = dbl _ IsDouble.eps := rfl
  have d1 : (div one (dbl _ jB) : D) = dbl _ jT1 := by rw [o1]; exact dbl_quot _ _ (by norm_num) _ (ex jT1 (by norm_num))
  have d2 : (div one (dbl _ jA) : D) = dbl _ jT2 := by rw [o1]; exact dbl_quot _ _ (by norm_num) _ (nearest_rd 4507997673882496 42 (by norm_num) (by norm_num) (by norm_num) (by norm_num) (by norm_num) (by norm_num))
  have d3 : (div one (dbl _ jC) : D) = dbl _ jc := by rw [o1]; exact dbl_quot _ _ (by norm_num) _ (nearest_rd 4503599628419072 52 (by norm_num) (by norm_num) (by norm_num) (by norm_num) (by norm_num) (by norm_num))
  have jw : IsDouble ((9:ℤ) / 2^36 : ℝ) := isd _ _
  have jv : IsDouble ((1:ℤ) / 2^35 : ℝ) := isd _ _
  have jnw : IsDouble ((-9:ℤ) / 2^36 : ℝ) := isd _ _
  have s12 : (sub (dbl _ ju1) (dbl _ ju2) : D) = dbl _ jw := dbl_sub _ _ _ (ex jw (by norm_num))
  have s21 : (sub (dbl _ ju2) (dbl _ ju1) : D) = dbl _ jnw := dbl_sub _ _ _ (ex jnw (by norm_num))
  have s1T : (sub (dbl _ ju1) (dbl _ jT2) : D) = dbl _ jv := dbl_sub _ _ _ (ex jv (by norm_num))
  have sz : ∀ {x : ℝ} (hx : IsDouble x), (sub (dbl x hx) (dbl x hx) : D) = dbl 0 IsDouble.zero := fun hx => dbl_sub _ _ _ (ex IsDouble.zero (by ring))
  have le0 : le (abs (dbl 0 IsDouble.zero : D)) E = true := by
    show XR.le (.fin |0|) E.1 = true
    rw [hE]; simp [XR.le, he0]
  have leW : ∀ {x : ℝ} (hx : IsDouble x), |x| = 9 / 2^36 → le (abs (dbl x hx : D)) E = false := by
    intro x hx hxe
    show XR.le (.fin |x|) E.1 = false
    rw [hE, hxe]
    simpa [XR.le] using he
  have leI : ∀ {x : ℝ} (hx : IsDouble x), le (abs (sub inf (dbl x hx) : D)) E = false := by
    intro x hx
    show XR.le .pinf E.1 = false
    rw [hE]; rfl
  have bI : ∀ {x : ℝ} (hx : IsDouble x), lt (dbl x hx : D) inf = true := fun _ => rfl
  have addz : ∀ {x : ℝ} (hx : IsDouble x), (add zero (dbl x hx) : D) = dbl x hx := fun hx => dbl_add IsDouble.zero hx hx (ex hx (by ring))
  have ev : XR.eps = 100000 / 2^52 := by unfold XR.eps; norm_num
  refine ⟨?_, ?_, ?_, ?_, rfl, rfl, rfl, rfl, rfl, rfl, ?_, ?_, ?_, ?_, ?_, ?_, rfl, rfl, ?_, ?_, ?_, ?_, ?_, ?_, ?_, ?_, two_dim, leI _, leI _, ?_, ?_, ?_, ?_, rfl, ?_⟩
  · rw [o1, mg, dbl_lt, ev]; norm_num
  · rw [mg, dbl_lt, ev]; norm_num
  · rw [mg, dbl_lt, ev]; norm_num
  · rw [mg, dbl_lt, ev]; norm_num
  · rw [z0, dbl_lt]; norm_num
  · rw [z0, dbl_lt]; norm_num
  · rw [z0, dbl_lt]; norm_num
  · rw [z0, dbl_lt]; norm_num
  · rw [d1]; exact addz _
  · rw [d2]; exact addz _
  · rw [dbl_lt]; norm_num
  · rw [dbl_lt]; norm_num
  · rw [dbl_lt]; norm_num
  · rw [dbl_lt]; norm_num
  · rw [dbl_lt]; norm_num
  · rw [dbl_lt]; norm_num
  · rw [d3]; exact dbl_add _ _ _ (ex ju1 (by norm_num))
  · rw [s1T, mg, dbl_lt, ev]; norm_num
  · rw [sz]; exact le0
  · rw [sz]; exact le0
  · rw [s12]; exact leW _ (by norm_num)
  · rw [s21]; exact leW _ (by norm_num)
  · have : ∃ z, ∃ hz : IsDouble z, (add (dbl _ ju2) margin : D) = dbl z hz := by
      rcases Rounding.nearest.mem ((70437463654407:ℤ) / 2^36 + XR.eps) with ⟨z, hz, hzz⟩ | hzz | hzz
      · exact ⟨z, hz, dbl_add ju2 IsDouble.eps hz hzz⟩
      · exfalso
        have h1 := Rounding.nearest.mono _ _ (show (70437463654407:ℤ) / 2^36 + XR.eps ≤ (2048:ℤ) / 2^0 by rw [ev]; norm_num)
        rw [hzz, Rounding.nearest.exact _ (isd 2048 0)] at h1
        cases h1
      · exfalso
        have h1 := Rounding.nearest.mono _ _ (show (0:ℝ) ≤ (70437463654407:ℤ) / 2^36 + XR.eps by rw [ev]; norm_num)
        rw [hzz, Rounding.nearest.exact _ IsDouble.zero] at h1
        cases h1
    obtain ⟨z, hz, e1⟩ := this
    show lt (add (dbl _ ju2) margin : D) inf = true
    rw [e1]; rfl

/-- **C92** is false (finding): in double arithmetic (rounding to nearest) FIM with its default threshold - or any threshold below `1.3e-10` - does not stop on the 2 x 2 map with cells
of size 1, no obstacles and speeds between `1/1026` and `1`: the time of the last cell changes for ever between two doubles `1.3e-10` apart, although exact arithmetic gives termination
(`C29_FIM_terminates`). -/
theorem _root_.FMV.C92_refuted_doubles : ∃ g : Grid (F64 Rounding.nearest), Input [2,2] g [0] ∧ Fresh g ∧ g.leaf.1 = .fin 1 ∧
    (∀ i, i < 4 → g.occ i = false ∧ ∃ v : ℝ, (g.vel i).1 = .fin v ∧ 1 / 1026 ≤ v ∧ v ≤ 1) ∧
    ∀ (E : F64 Rounding.nearest) (e : ℝ), E.1 = .fin e → 0 ≤ e → e ≤ 1 / 10^10 →
      ∀ goal, (goal = 3 ∨ goal = noGoal) → ∀ (n : Nat) (s : St (F64 Rounding.nearest)), Steps (Step E goal eikS) n (init g [] [0]) s → ¬ Done s := by
  refine ⟨crossMap one (GMM.dbl _ jA) (GMM.dbl _ jB) (GMM.dbl _ jC), ⟨⟨by decide, by decide, by decide⟩, rfl, by decide⟩, ⟨fun _ => rfl, fun _ => rfl, fun _ => rfl⟩, rfl, ?_, ?_⟩
  · have A := flips zero 0 rfl (le_refl _) (by norm_num)
    intro i hi
    rcases (show i = 0 ∨ i = 1 ∨ i = 2 ∨ i = 3 by omega) with rfl | rfl | rfl | rfl
    · exact ⟨A.f0, 1, rfl, by norm_num, by norm_num⟩
    · exact ⟨A.fA, _, rfl, by norm_num, by norm_num⟩
    · exact ⟨A.fB, _, rfl, by norm_num, by norm_num⟩
    · exact ⟨A.fC, _, rfl, by norm_num, by norm_num⟩
  · intro E e hE he0 he goal hg n s hs
    exact flips_never_ends (flips E e hE he0 (lt_of_le_of_lt he (by norm_num))) goal (by rcases hg with rfl | rfl <;> decide) (by rcases hg with rfl | rfl <;> decide) n s hs

/-- **C92, proved part**: with exact arithmetic (real numbers) FIM stops for every threshold `e ≥ 0`.  Missing for the full statement: the same for doubles, which is false
(`C92_refuted_doubles`). -/
theorem _root_.FMV.C92_FIM_stops_partial {dims : List Nat} {g : Grid XR} {h : ℝ} {v : Nat → ℝ} {pts : List Nat} (X : XInput dims g h v pts) (ha : StartsApart dims g pts)
    (hfr : Fresh g) (e : ℝ) (he : 0 ≤ e) (goal : Nat) : ∃ n s, Steps (Step (.fin e) goal eikS) n (init g [] pts) s ∧ Done s :=
  (C29_FIM_terminates X ha hfr e he goal).2

/-- The hypotheses are met by the 3 x 3 map with an obstacle and two starts of `exGrid`. -/
example : ∃ n s, Steps (Step (.fin 0) noGoal eikS) n (init exGrid [] [0, 8]) s ∧ Done s :=
  C92_FIM_stops_partial exGrid_ok.1 exGrid_ok.2.1 exGrid_ok.2.2.1 0 (le_refl _) noGoal

end FIM
end FMV
