import Verif.Lemmas.UQDefined
import Verif.Props.UFMMF64
import Verif.Props.FIMAcc64
/-! C95 for every run of UFMM in doubles that performs no undefined conversion to `unsigned`. -/
set_option linter.unusedSectionVars false
set_option linter.unusedVariables false
namespace FMV
open Spec Shape XR FMM
variable {R : Rounding}
section final
variable {dims : List Nat} {g : Grid (F64 R)} {h : ℝ} {v : Nat → ℝ} {pts : List Nat} {cm cM A inc : ℝ} {n : Nat}

/-- **C95** (order): in doubles, at any moment of a UFMM run with a queue that suits the map in which no undefined conversion has been performed, no FROZEN cell
has a larger arrival time than a cell that is not FROZEN by more than twice the width of a bucket. -/
theorem C95_order {K : Nat} (I : DInput dims g h v pts cm cM A) (hcc : cm ≤ cM) (hK : Within dims g pts K)
    (hA : (2 * cM + 2 * (inc / n)) * (K + 2) ≤ A) (Q : QueueFits dims.length n cm cM A inc) (hfr : Fresh g) (ha : StartsApart dims g pts) (incF : F64 R) (hi : incF.1 = .fin inc)
    (ub : F64 R → Nat) (goal m : Nat) (u : UFMM.St (F64 R)) (h0 : UFMM.initDefined g (UQ.create n incF ub) pts)
    (hs : Steps (UFMM.DStep goal eikS) m (UFMM.init g (UQ.create n incF ub) pts) u)
    (i k : Nat) (hk : k < dims.prod) (hfi : u.g.state i = .frozen) (hfk : u.g.state k ≠ .frozen) :
    toT (u.g.value i).1 ≤ toT (u.g.value k).1 + ((2 * (inc / n) : ℝ) : WithTop ℝ) := by
  have h1 := UFMM.wu_run (fun _ => 0) hs
  rw [← UFMM.wu_init _ h0] at h1
  exact C95_order_partial I hcc hK hA Q hfr ha incF hi (fun _ => 0) (fun _ _ _ _ _ => rfl) goal m _ h1 i k hk hfi hfk

/-- **C95** (accuracy): in doubles, with every operation rounded and a queue that suits the map, when the queue of UFMM is empty after a run in which no undefined
conversion was performed, every time is the exact solution `U` up to the relative error `queueErr`, `+inf` exactly where `U` is, and never NaN. -/
theorem C95_accuracy {K : Nat} (I : DInput dims g h v pts cm cM A) (hcc : cm ≤ cM) (hK : Within dims g pts K)
    (hA : (2 * cM + 2 * (inc / n)) * (K + 2) ≤ A) (Q : QueueFits dims.length n cm cM A inc) (hfr : Fresh g) (ha : StartsApart dims g pts)
    (U : Nat → WithTop ℝ) (hU : I.X.problem.IsSolution U) (incF : F64 R) (hi : incF.1 = .fin inc)
    (ub : F64 R → Nat) (goal m : Nat) (u : UFMM.St (F64 R)) (h0 : UFMM.initDefined g (UQ.create n incF ub) pts)
    (hs : Steps (UFMM.DStep goal eikS) m (UFMM.init g (UQ.create n incF ub) pts) u)
    (hend : u.q.nb = 0) (i : Nat) (hiN : i < dims.prod) : RelClose (queueErr dims.length n cm A inc) (U i) (u.g.value i).1 := by
  have h1 := UFMM.wu_run (fun _ => 0) hs
  rw [← UFMM.wu_init _ h0] at h1
  exact C95_accuracy_partial I hcc hK hA Q hfr ha U hU incF hi (fun _ => 0) (fun _ _ _ _ _ => rfl) goal m _ h1 hend i hiN

end final

/-! ### non-vacuity: a run without undefined conversion that crosses three cells -/
namespace UFMM
section chain
variable {F : Type} [Arith F]

theorem advance_to : ∀ (k fuel : Nat) (q : UQ F), k ≤ fuel → q.i0 + k < q.size → (∀ j, j < k → q.tab (q.i0 + j) = []) → q.tab (q.i0 + k) ≠ [] →
    q.advance fuel = { q with i0 := q.i0 + k, t0 := (fun t => Arith.add t q.delta)^[k] q.t0 }
  | 0, fuel, q, _, _, _, hne => by
    rw [UQ.advance_stay _ _ (by simpa using hne)]; rfl
  | k+1, fuel, q, hf, hs, he, hne => by
    obtain ⟨m, rfl⟩ : ∃ m, fuel = m + 1 := ⟨fuel - 1, by omega⟩
    unfold UQ.advance
    rw [if_pos (by simpa using he 0 (by omega))]
    have hi : q.shift.i0 = q.i0 + 1 := by
      show (q.i0 + 1) % q.size = _
      exact Nat.mod_eq_of_lt (by omega)
    rw [advance_to k m q.shift (by omega) (by rw [hi]; show q.i0 + 1 + k < q.size; omega)
      (fun j hj => by rw [hi, UQ.shift_tab, show q.i0 + 1 + j = q.i0 + (j + 1) by omega]; exact he _ (by omega))
      (by rw [hi, UQ.shift_tab, show q.i0 + 1 + k = q.i0 + (k + 1) by omega]; exact hne)]
    rw [hi, Function.iterate_succ_apply]
    show UQ.mk _ _ _ _ _ _ _ _ = UQ.mk _ _ _ _ _ _ _ _
    congr 1
    omega

/-- what the queue must compute on the chain of three free cells -/
structure ChainQ (n b1 b2 : Nat) (inc two : F) : Prop where
  c1 : Arith.floorU32 (Arith.div (Arith.mul (Arith.sub Arith.one Arith.zero) (Arith.ofNat n)) inc) = some b1
  c2 : Arith.floorU32 (Arith.div (Arith.mul (Arith.sub two Arith.one) (Arith.ofNat n)) inc) = some b2
  p1 : 0 < b1
  p2 : 0 < b2
  lt : b1 + b2 < n
  t1 : (fun t => Arith.add t (Arith.div inc (Arith.ofNat n)))^[b1] Arith.zero = (Arith.one : F)

variable {E two inc : F} {n b1 b2 : Nat}
local notation "AtC" => FIM.At (F := F) Arith.one Arith.zero Arith.one Arith.one

theorem At_bucket {t1 t2 t3 : F} {s1 s2 s3 : FMState} {g : Grid F} (S : AtC t1 t2 t3 s1 s2 s3 g) (i b : Nat) : AtC t1 t2 t3 s1 s2 s3 (g.setBucket i b) :=
  ⟨S.map.trans (sameMap_setBucket _ _ _), by simp [S.v0], by simp [S.v1], by simp [S.v2], by simp [S.v3], by simp [S.k0], by simp [S.k1], by simp [S.k2],
    by simp [S.k3]⟩

theorem relax_skip {eik : Eik F} {s : St F} {j : Nat} (h : s.g.state j = .frozen ∨ s.g.occ j = true) : relax eik s j = s ∧ relaxDefined eik s j := by
  refine ⟨if_pos h, ?_⟩
  unfold relaxDefined; rw [if_pos h]; trivial

theorem relax_new {eik : Eik F} {s : St F} {j b : Nat} {t : F} (h1 : s.g.state j = .opn) (h2 : s.g.occ j = false) (h3 : (eik s.g j).1 = t) (h4 : s.q.nb ≠ 0)
    (h5 : Arith.floorU32 (Arith.div (Arith.mul (Arith.sub t s.q.t0) (Arith.ofNat s.q.size)) s.q.incMax) = some b) (h6 : b + s.q.i0 < s.q.size) :
    relax eik s j = ⟨(((s.g.setScratch (eik s.g j).2).setState j .narrow).setValue j t).setBucket j (b + s.q.i0),
      ({ s.q with nb := s.q.nb + 1 } : UQ F).cons (b + s.q.i0) j, s.stop⟩ ∧ relaxDefined eik s j := by
  have hv : (((s.g.setScratch (eik s.g j).2).setState j .narrow).setValue j t).value j = t := by rw [Grid.value_setValue, if_pos rfl]
  have hb : s.q.bucketOf t = b + s.q.i0 := by
    unfold UQ.bucketOf UQ.rawIdx
    dsimp only
    rw [h5, Option.getD_some, if_neg (by omega), Nat.mod_eq_of_lt h6]
  have hn : ¬ (s.g.state j = .frozen ∨ s.g.occ j = true) := by rw [h1, h2]; simp
  constructor
  · unfold relax
    rw [if_neg hn]
    dsimp only
    rw [if_neg (by rw [h1]; simp), h3]
    unfold push
    dsimp only
    rw [hv]
    unfold UQ.push
    rw [if_neg h4, hb]
  · unfold relaxDefined
    rw [if_neg hn]
    dsimp only
    rw [if_neg (by rw [h1]; simp), h3]
    unfold pushDefined
    dsimp only
    rw [hv]
    refine .inr ?_
    unfold UQ.convDefined
    rw [h5]; rfl

/-- the run ends after three iterations and performs no undefined conversion -/
theorem chain_run (A : FIM.ChainOk E two) (B : ChainQ n b1 b2 inc two) (ub : F → Nat) (goal : Nat) (hg : 4 ≤ goal) :
    initDefined (FIM.crossMap (F := F) Arith.one Arith.zero Arith.one Arith.one) (UQ.create n inc ub) [0] ∧
    ∃ s, Steps (DStep goal eikS) 3 (init (FIM.crossMap (F := F) Arith.one Arith.zero Arith.one Arith.one) (UQ.create n inc ub) [0]) s ∧ s.q.nb = 0 ∧ s.g.value 3 = two := by
  have n0 : (Shape.mk' [2,2]).nbrs 0 = [1, 2] := by decide
  have n3 : (Shape.mk' [2,2]).nbrs 3 = [2, 1] := by decide
  have n2 : (Shape.mk' [2,2]).nbrs 2 = [3, 0] := by decide
  have l := B.lt
  have p1 := B.p1
  have p2 := B.p2
  refine ⟨⟨.inl rfl, trivial⟩, ?_⟩
  set g0 := ((FIM.crossMap (F := F) Arith.one Arith.zero Arith.one Arith.one).setValue 0 Arith.zero).setBucket 0 0 with hg0
  have e0 : init (FIM.crossMap (F := F) Arith.one Arith.zero Arith.one Arith.one) (UQ.create n inc ub) [0] =
      ⟨g0, ⟨fun k => if k = 0 then [0] else [], n, 1, Arith.zero, 0, Arith.div inc (Arith.ofNat n), inc, ub⟩, false⟩ := by
    show push _ 0 = _
    unfold push UQ.push
    dsimp only
    have : (UQ.create n inc ub).nb = 0 := rfl
    rw [if_pos this]
    rw [Grid.value_setValue, if_pos rfl]
    rfl
  rw [e0]
  set dl := Arith.div inc (Arith.ofNat n) with hdl
  -- first iteration
  have S0 : AtC Arith.inf Arith.inf Arith.inf .opn .opn .opn (g0.setState 0 .frozen) := by
    refine ⟨((sameMap_setValue _ _ _).trans (sameMap_setBucket _ _ _)).trans (sameMap_setState _ _ _), ?_, ?_, ?_, ?_, ?_, ?_, ?_, ?_⟩
    · rw [hg0, Grid.value_setState, Grid.value_setBucket, Grid.value_setValue, if_pos rfl]
    · rw [hg0, Grid.value_setState, Grid.value_setBucket, Grid.value_setValue, if_neg (by decide)]; rfl
    · rw [hg0, Grid.value_setState, Grid.value_setBucket, Grid.value_setValue, if_neg (by decide)]; rfl
    · rw [hg0, Grid.value_setState, Grid.value_setBucket, Grid.value_setValue, if_neg (by decide)]; rfl
    · rw [Grid.state_setState, if_pos rfl]
    · rw [Grid.state_setState, if_neg (by decide), hg0, Grid.state_setBucket, Grid.state_setValue]; rfl
    · rw [Grid.state_setState, if_neg (by decide), hg0, Grid.state_setBucket, Grid.state_setValue]; rfl
    · rw [Grid.state_setState, if_neg (by decide), hg0, Grid.state_setBucket, Grid.state_setValue]; rfl
  have st1 : ∃ g1, DStep goal eikS ⟨g0, ⟨fun k => if k = 0 then [0] else [], n, 1, Arith.zero, 0, dl, inc, ub⟩, false⟩
      ⟨g1, ⟨fun k => if k = b1 then [2] else [], n, 1, Arith.zero, 0, dl, inc, ub⟩, false⟩ ∧ AtC Arith.inf Arith.one Arith.inf .opn .narrow .opn g1 := by
    set q0 : UQ F := ⟨fun k => if k = 0 then [0] else [], n, 1, Arith.zero, 0, dl, inc, ub⟩ with hq0
    have hsh : q0.Shows 0 := rfl
    obtain ⟨⟨_, o1, o2, _⟩, _, _, sh⟩ := S0.cfacts A
    have sh0 : g0.shape.nbrs 0 = [1, 2] := n0
    have r1 := relax_skip (eik := eikS) (s := (⟨g0.setState 0 .frozen, q0, false⟩ : St F)) (j := 1) (.inr o1)
    have r2 := relax_new (eik := eikS) (s := (⟨g0.setState 0 .frozen, q0, false⟩ : St F)) (j := 2) (b := b1) S0.k2 o2 (S0.ceik2 A (.inl ⟨rfl, rfl⟩))
      (by show (1:Nat) ≠ 0; omega) B.c1 (by show b1 + 0 < n; omega)
    have S1 := At_bucket ((S0.mark (i := 2) (k := .narrow) (by decide)).set (i := 2) (t := (Arith.one : F)) (scr := (eikS (g0.setState 0 .frozen) 2).2) (by decide)) 2 (b1 + q0.i0)
    simp only [if_true, show ¬ (1 = 2) by decide, show ¬ (3 = 2) by decide, if_false] at S1
    refine ⟨_, ⟨⟨?_, 0, ?_, ?_⟩, ?_⟩, S1⟩
    · rintro (h | h)
      · cases h
      · exact absurd (show (1:Nat) = 0 from h) (by omega)
    · show q0.top.2 = some 0
      rw [hsh.top]
    · show _ = expand goal eikS ⟨g0, q0.top.1, false⟩ 0
      rw [hsh.top]
      unfold expand
      dsimp only
      rw [sh0]
      simp only [List.foldl_cons, List.foldl_nil]
      rw [r1.1, r2.1]
      dsimp only
      rw [if_neg (by omega)]
      congr 1
      unfold UQ.pop
      have hs : (({ q0 with nb := q0.nb + 1 } : UQ F).cons (b1 + q0.i0) 2).settle = (({ q0 with nb := q0.nb + 1 } : UQ F).cons (b1 + q0.i0) 2) := by
        refine UQ.advance_stay _ _ ?_
        show (if 0 = b1 + 0 then _ else [0]) ≠ []
        rw [if_neg (by omega)]; simp
      rw [hs, if_neg (by show ¬ (1 + 1 = 0); omega)]
      show UQ.mk _ _ _ _ _ _ _ _ = UQ.mk _ _ _ _ _ _ _ _
      congr 1
      funext k
      show _ = if k = 0 then (if k = b1 + 0 then 2 :: (if k = 0 then [0] else []) else (if k = 0 then [0] else [])).dropLast else (if k = b1 + 0 then 2 :: (if k = 0 then [0] else []) else (if k = 0 then [0] else []))
      by_cases hk : k = 0
      · subst hk; rw [if_neg (by omega)]; simp [p1.ne]
      · simp [hk]
    · intro x hx
      have hx' : q0.top.2 = some x := hx
      rw [hsh.top] at hx'
      cases hx'
      show allDefined _ _ ⟨g0.setState 0 .frozen, q0.top.1, false⟩ (g0.shape.nbrs 0)
      rw [hsh.top, sh0]
      refine ⟨r1.2, ?_, trivial⟩
      rw [r1.1]; exact r2.2
  obtain ⟨g1, d1, S1⟩ := st1
  -- second iteration
  have st2 : ∃ g2, DStep goal eikS ⟨g1, ⟨fun k => if k = b1 then [2] else [], n, 1, Arith.zero, 0, dl, inc, ub⟩, false⟩
      ⟨g2, ⟨fun k => if k = b2 + b1 then [3] else [], n, 1, Arith.one, b1, dl, inc, ub⟩, false⟩ ∧ AtC Arith.inf Arith.one two .opn .frozen .narrow g2 := by
    set q1 : UQ F := ⟨fun k => if k = b1 then [2] else [], n, 1, Arith.zero, 0, dl, inc, ub⟩ with hq1
    set q2 : UQ F := ⟨fun k => if k = b1 then [2] else [], n, 1, Arith.one, b1, dl, inc, ub⟩ with hq2
    have hset : q1.settle = q2 := by
      unfold UQ.settle
      rw [advance_to b1 _ q1 (by show b1 ≤ n; omega) (by show 0 + b1 < n; omega)
        (fun j hj => by show (if 0 + j = b1 then [2] else []) = []; rw [if_neg (by omega)])
        (by show (if 0 + b1 = b1 then [2] else []) ≠ []; rw [if_pos (by omega)]; simp)]
      show UQ.mk _ _ _ _ _ _ _ _ = UQ.mk _ _ _ _ _ _ _ _
      congr 1
      · exact B.t1
      · show 0 + b1 = b1; omega
    have hsh : q2.Shows 2 := by
      show (if b1 = b1 then [2] else []).getLast? = some 2
      rw [if_pos rfl]; rfl
    have htop : q1.top = (q2, some 2) := by
      unfold UQ.top; rw [hset]
      have := hsh
      unfold UQ.Shows at this
      rw [this]
    have S1' := S1.mark (i := 2) (k := .frozen) (by decide)
    simp only [if_true, show ¬ (1 = 2) by decide, show ¬ (3 = 2) by decide, if_false] at S1'
    obtain ⟨⟨_, _, _, o3⟩, _, _, sh⟩ := S1'.cfacts A
    have sh0 : g1.shape.nbrs 2 = [3, 0] := by rw [show g1.shape = Shape.mk' [2,2] from sh]; exact n2
    have r1 := relax_new (eik := eikS) (s := (⟨g1.setState 2 .frozen, q2, false⟩ : St F)) (j := 3) (b := b2) S1'.k3 o3 (S1'.ceik3 A (.inl rfl))
      (by show (1:Nat) ≠ 0; omega) B.c2 (by show b2 + b1 < n; omega)
    have S2 := At_bucket ((S1'.mark (i := 3) (k := .narrow) (by decide)).set (i := 3) (t := two) (scr := (eikS (g1.setState 2 .frozen) 3).2) (by decide)) 3 (b2 + q2.i0)
    simp only [if_true, show ¬ (1 = 3) by decide, show ¬ (2 = 3) by decide, if_false] at S2
    have r2 := fun (q : UQ F) => relax_skip (eik := eikS) (s := (⟨(((g1.setState 2 .frozen).setScratch (eikS (g1.setState 2 .frozen) 3).2).setState 3 .narrow).setValue 3 two |>.setBucket 3 (b2 + q2.i0), q, false⟩ : St F)) (j := 0)
      (.inl S2.k0)
    refine ⟨_, ⟨⟨?_, 2, ?_, ?_⟩, ?_⟩, S2⟩
    · rintro (h | h)
      · cases h
      · exact absurd (show (1:Nat) = 0 from h) (by omega)
    · show q1.top.2 = some 2
      rw [htop]
    · show _ = expand goal eikS ⟨g1, q1.top.1, false⟩ 2
      rw [htop]
      unfold expand
      dsimp only
      rw [sh0]
      simp only [List.foldl_cons, List.foldl_nil]
      rw [r1.1, (r2 _).1]
      dsimp only
      rw [if_neg (by omega)]
      congr 1
      unfold UQ.pop
      have hs : (({ q2 with nb := q2.nb + 1 } : UQ F).cons (b2 + q2.i0) 3).settle = (({ q2 with nb := q2.nb + 1 } : UQ F).cons (b2 + q2.i0) 3) := by
        refine UQ.advance_stay _ _ ?_
        show (if b1 = b2 + b1 then _ else if b1 = b1 then [2] else []) ≠ []
        rw [if_neg (by omega), if_pos rfl]; simp
      rw [hs, if_neg (by show ¬ (1 + 1 = 0); omega)]
      show UQ.mk _ _ _ _ _ _ _ _ = UQ.mk _ _ _ _ _ _ _ _
      congr 1
      funext k
      show _ = if k = b1 then (if k = b2 + b1 then 3 :: (if k = b1 then [2] else []) else (if k = b1 then [2] else [])).dropLast else (if k = b2 + b1 then 3 :: (if k = b1 then [2] else []) else (if k = b1 then [2] else []))
      by_cases hk : k = b1
      · subst hk; rw [if_neg (by omega)]; simp [p2.ne']
      · simp [hk]
    · intro x hx
      have hx' : q1.top.2 = some x := hx
      rw [htop] at hx'
      cases hx'
      show allDefined _ _ ⟨g1.setState 2 .frozen, q1.top.1, false⟩ (g1.shape.nbrs 2)
      rw [htop, sh0]
      refine ⟨r1.2, ?_, trivial⟩
      rw [r1.1]; exact (r2 _).2
  obtain ⟨g2, d2, S2⟩ := st2
  -- third iteration
  have st3 : ∃ s3, DStep goal eikS ⟨g2, ⟨fun k => if k = b2 + b1 then [3] else [], n, 1, Arith.one, b1, dl, inc, ub⟩, false⟩ s3 ∧ s3.q.nb = 0 ∧ s3.g.value 3 = two := by
    set q3 : UQ F := ⟨fun k => if k = b2 + b1 then [3] else [], n, 1, Arith.one, b1, dl, inc, ub⟩ with hq3
    obtain ⟨q4, hset, hsh⟩ : ∃ q4, q3.settle = q4 ∧ q4.Shows 3 := by
      refine ⟨_, rfl, ?_⟩
      unfold UQ.settle
      rw [advance_to b2 _ q3 (by show b2 ≤ n; omega) (by show b1 + b2 < n; omega)
        (fun j hj => by show (if b1 + j = b2 + b1 then [3] else []) = []; rw [if_neg (by omega)])
        (by show (if b1 + b2 = b2 + b1 then [3] else []) ≠ []; rw [if_pos (by omega)]; simp)]
      show (if b1 + b2 = b2 + b1 then [3] else []).getLast? = some 3
      rw [if_pos (by omega)]; rfl
    have htop : q3.top = (q4, some 3) := by
      unfold UQ.top; rw [hset]
      have := hsh
      unfold UQ.Shows at this
      rw [this]
    have S2' := S2.mark (i := 3) (k := .frozen) (by decide)
    simp only [if_true, show ¬ (1 = 3) by decide, show ¬ (2 = 3) by decide, if_false] at S2'
    obtain ⟨⟨_, o1, _, _⟩, _, _, sh⟩ := S2'.cfacts A
    have sh0 : g2.shape.nbrs 3 = [2, 1] := by rw [show g2.shape = Shape.mk' [2,2] from sh]; exact n3
    have r1 := relax_skip (eik := eikS) (s := (⟨g2.setState 3 .frozen, q4, false⟩ : St F)) (j := 2) (.inl S2'.k2)
    have r2 := relax_skip (eik := eikS) (s := (⟨g2.setState 3 .frozen, q4, false⟩ : St F)) (j := 1) (.inr o1)
    refine ⟨expand goal eikS ⟨g2, q3.top.1, false⟩ 3, ⟨⟨?_, 3, ?_, rfl⟩, ?_⟩, ?_⟩
    · rintro (h | h)
      · cases h
      · exact absurd (show (1:Nat) = 0 from h) (by omega)
    · show q3.top.2 = some 3
      rw [htop]
    · intro x hx
      have hx' : q3.top.2 = some x := hx
      rw [htop] at hx'
      cases hx'
      show allDefined _ _ ⟨g2.setState 3 .frozen, q3.top.1, false⟩ (g2.shape.nbrs 3)
      rw [htop, sh0]
      refine ⟨r1.2, ?_, trivial⟩
      rw [r1.1]; exact r2.2
    · rw [htop]
      unfold expand
      dsimp only
      rw [sh0]
      simp only [List.foldl_cons, List.foldl_nil]
      rw [r1.1, r2.1]
      refine ⟨?_, S2'.v3⟩
      have hn : q4.nb = 1 := by rw [← hset, (UQ.settle_keeps q3).2.2.1]
      show q4.pop.nb = 0
      unfold UQ.pop
      rw [if_neg (by omega), hsh.settle]
      show q4.nb - 1 = 0
      omega
  obtain ⟨s3, d3, h1, h2⟩ := st3
  exact ⟨s3, .tail (.tail (.tail (.refl _) d1) d2) d3, h1, h2⟩
end chain

theorem chainQ64 (R : Rounding) : ChainQ 1024 256 256 (Arith.ofNat 4 : F64 R)
    (⟨.fin 2, fun _ h => by cases h; have := isDouble_nat (n := 2) (by norm_num); simpa using this⟩ : F64 R) := by
  have hN : ∀ k : Nat, k < 2^53 → (Arith.ofNat k : F64 R).1 = .fin (k:ℝ) := by
    intro k hk
    show R.rd (((k : Int) : ℝ) / ((1 : Nat) : ℝ)) = _
    have e : ((k : Int) : ℝ) / ((1 : Nat) : ℝ) = (k:ℝ) := by norm_num
    rw [e, R.exact _ (isDouble_nat hk)]
  have hr : ∀ (k : Nat) {x : ℝ}, k < 2^53 → x = (k:ℝ) → (F64.rnd R (.fin x)).1 = .fin (k:ℝ) := by
    intro k x hk hx
    show R.rd x = _
    rw [hx, R.exact _ (isDouble_nat hk)]
  have hfl : Arith.floorU32 (XR.fin 256) = some 256 := by
    show (if 0 ≤ ⌊(256:ℝ)⌋ ∧ ⌊(256:ℝ)⌋ < 4294967296 then some ⌊(256:ℝ)⌋.toNat else none) = some 256
    have : ⌊(256:ℝ)⌋ = 256 := by norm_num
    rw [this, if_pos (by norm_num)]; rfl
  have conv : ∀ (x y : F64 R) (a b : ℝ), x.1 = .fin a → y.1 = .fin b → a - b = 1 →
      Arith.floorU32 (Arith.div (Arith.mul (Arith.sub x y) (Arith.ofNat 1024)) (Arith.ofNat 4 : F64 R)) = some 256 := by
    intro x y a b hx hy hab
    have h1 : (Arith.sub x y).1 = .fin ((1:Nat):ℝ) := by
      show (F64.rnd R (XR.add x.1 (XR.neg y.1))).1 = _
      rw [hx, hy]
      exact hr 1 (by norm_num) (by rw [← sub_eq_add_neg, hab]; norm_num)
    have h2 : (Arith.mul (Arith.sub x y) (Arith.ofNat 1024)).1 = .fin ((1024:Nat):ℝ) := by
      show (F64.rnd R (XR.mul (Arith.sub x y).1 (Arith.ofNat 1024 : F64 R).1)).1 = _
      rw [h1, hN 1024 (by norm_num)]
      exact hr 1024 (by norm_num) (by norm_num)
    have h3 : (Arith.div (Arith.mul (Arith.sub x y) (Arith.ofNat 1024)) (Arith.ofNat 4 : F64 R)).1 = .fin 256 := by
      show (F64.rnd R (XR.div (Arith.mul (Arith.sub x y) (Arith.ofNat 1024)).1 (Arith.ofNat 4 : F64 R).1)).1 = _
      rw [h2, hN 4 (by norm_num)]
      simp only [XR.div]
      rw [if_neg (by norm_num)]
      have := hr 256 (x := ((1024:Nat):ℝ) / ((4:Nat):ℝ)) (by norm_num) (by norm_num)
      rw [this]; norm_num
    show Arith.floorU32 (Arith.div (Arith.mul (Arith.sub x y) (Arith.ofNat 1024)) (Arith.ofNat 4 : F64 R)).1 = _
    rw [h3]; exact hfl
  refine ⟨conv _ _ 1 0 rfl rfl (by norm_num), conv _ _ 2 1 rfl rfl (by norm_num), by norm_num, by norm_num, by norm_num, ?_⟩
  have hd : (Arith.div (Arith.ofNat 4) (Arith.ofNat 1024) : F64 R).1 = .fin (1 / 256) := by
    show (F64.rnd R (XR.div (Arith.ofNat 4 : F64 R).1 (Arith.ofNat 1024 : F64 R).1)).1 = _
    rw [hN 4 (by norm_num), hN 1024 (by norm_num)]
    simp only [XR.div]
    rw [if_neg (by norm_num)]
    show R.rd _ = _
    have e : ((4:Nat):ℝ) / ((1024:Nat):ℝ) = 1 / 256 := by norm_num
    have hdb : IsDouble ((1:ℝ) / 256) := by
      have := FIM.isd 1 8
      norm_num at this ⊢
      exact this
    rw [e, R.exact _ hdb]
  have key : ∀ k : Nat, k ≤ 256 → ((fun t => Arith.add t (Arith.div (Arith.ofNat 4) (Arith.ofNat 1024) : F64 R))^[k] Arith.zero).1 = .fin (k / 256) := by
    intro k
    induction k with
    | zero => intro _; show XR.fin 0 = _; norm_num
    | succ k ih =>
      intro hk
      rw [Function.iterate_succ_apply']
      show (F64.rnd R (XR.add _ _)).1 = _
      rw [ih (by omega), hd]
      show R.rd _ = _
      have e : (k:ℝ) / 256 + 1 / 256 = ((k+1 : Nat):ℝ) / 256 := by push_cast; ring
      have hdb : IsDouble (((k+1 : Nat):ℝ) / 256) := by
        have h53 : |((k+1 : Nat) : ℤ)| < 2^53 := by
          rw [abs_of_nonneg (by positivity)]
          have : ((k+1:Nat):ℤ) ≤ 256 := by exact_mod_cast hk
          norm_num at this ⊢
          omega
        have := FIM.isd ((k+1 : Nat) : ℤ) 8 h53 (by norm_num)
        have e2 : (((k+1:Nat):ℤ):ℝ) / 2^8 = ((k+1 : Nat):ℝ) / 256 := by rw [Int.cast_natCast]; norm_num
        rw [← e2]; exact this
      rw [e, R.exact _ hdb]
  apply Subtype.ext
  rw [key 256 (le_refl _)]
  show XR.fin _ = XR.fin 1
  norm_num
end UFMM

/-- non-vacuity: rounding to nearest, a 2 x 2 map with one obstacle, a queue of 1024 buckets and a window of 4: all hypotheses hold, whatever undefined conversions
would yield; the run performs none, ends after three iterations and reaches the third free cell at time 2 -/
example : ∃ (g : Grid (F64 Rounding.nearest)) (v : Nat → ℝ) (A : ℝ) (I : DInput [2,2] g 1 v [0] 1 1 A) (incF : F64 Rounding.nearest), incF.1 = .fin 4 ∧ Fresh g ∧
    StartsApart [2,2] g [0] ∧ Within [2,2] g [0] 3 ∧ g.occ 1 = true ∧ (2 * 1 + 2 * ((4:ℝ) / (1024:ℕ))) * ((3:ℕ) + 2) ≤ A ∧ QueueFits 2 1024 1 1 A 4 ∧
    queueErr 2 1024 1 A 4 < 2 / 100 ∧ (∃ U, I.X.problem.IsSolution U) ∧ ∀ ub : F64 Rounding.nearest → Nat,
    UFMM.initDefined g (UQ.create 1024 incF ub) [0] ∧ ∃ s, Steps (UFMM.DStep noGoal eikS) 3 (UFMM.init g (UQ.create 1024 incF ub) [0]) s ∧ s.q.nb = 0 ∧
    (s.g.value 3).1 = .fin 2 := by
  set g : Grid (F64 Rounding.nearest) := FIM.crossMap Arith.one Arith.zero Arith.one Arith.one with hg
  have hep := eps_pos
  have occ1 : g.occ 1 = true := by
    show XR.lt (fin 0) (fin eps) = true
    simpa [XR.lt] using hep
  have X : XInput [2,2] (gridX g) 1 (fun _ => 1) [0] := by
    refine ⟨⟨by decide, by decide, by decide⟩, by decide, rfl, by decide, one_pos, rfl, ?_⟩
    intro i hi ho
    have h4 : i = 0 ∨ i = 1 ∨ i = 2 ∨ i = 3 := by
      have : i < 4 := hi
      omega
    rcases h4 with rfl | rfl | rfl | rfl
    · rfl
    · exact absurd (show g.occ 1 = false from ho) (by rw [occ1]; simp)
    · rfl
    · rfl
  have b1 : (2:ℝ)^(-200:ℤ) ≤ 1 := by
    have : (2:ℝ)^(-200:ℤ) ≤ (2:ℝ)^(0:ℤ) := zpow_le_zpow_right₀ (by norm_num) (by norm_num)
    simpa using this
  have b2 : (1:ℝ) ≤ (2:ℝ)^(200:ℤ) := by
    have : (2:ℝ)^(0:ℤ) ≤ (2:ℝ)^(200:ℤ) := zpow_le_zpow_right₀ (by norm_num) (by norm_num)
    simpa using this
  have b3 : (32:ℝ) ≤ (2:ℝ)^(300:ℤ) := by
    have : (2:ℝ)^(5:ℤ) ≤ (2:ℝ)^(300:ℤ) := zpow_le_zpow_right₀ (by norm_num) (by norm_num)
    refine le_trans ?_ this
    norm_num
  have I : DInput [2,2] g 1 (fun _ => 1) [0] 1 1 32 := by
    refine ⟨X, b1, b2, fun _ _ _ => b2, one_pos, fun _ _ _ => by norm_num, fun _ _ _ => by norm_num, by norm_num, by norm_num, b3, ?_, ?_⟩
    · show 640 * ((2:ℕ):ℝ)^4 * uu * 32^2 ≤ 1^2
      unfold uu; norm_num
    · unfold XR.eps; norm_num
  have hap : StartsApart [2,2] g [0] := by
    intro i hi j hj _ hadj
    simp only [List.mem_singleton] at hi hj
    subst hi; subst hj
    obtain ⟨k, h0, h1, h2, h3⟩ := hadj
    have h4 : k = 0 ∨ k = 1 := by
      have : k < 2 := h1
      omega
    rcases h4 with rfl | rfl <;> revert h2 <;> decide
  obtain ⟨U, hU, _⟩ := C17_unique_solution X.problem X.wellPosed
  have h4 : ((Arith.ofNat 4 : F64 Rounding.nearest)).1 = .fin 4 := by
    show Rounding.nearest.rd (((4 : Int) : ℝ) / ((1 : Nat) : ℝ)) = _
    have e : ((4 : Int) : ℝ) / ((1 : Nat) : ℝ) = ((4:ℕ):ℝ) := by norm_num
    rw [e, Rounding.nearest.exact _ (isDouble_nat (by norm_num))]; norm_num
  refine ⟨g, fun _ => 1, 32, I, Arith.ofNat 4, h4, ⟨fun _ => rfl, fun _ => rfl, fun _ => rfl⟩, hap, ?_, occ1, by norm_num,
    ⟨by norm_num, by norm_num, by norm_num, ?_, by norm_num, ?_⟩, ?_, ⟨U, hU⟩, fun ub => ?_⟩
  · have := DInput.within_cells X
    exact this
  · exact le_trans (by norm_num) b3
  · unfold relErr; norm_num
  · unfold queueErr relErr; norm_num
  · obtain ⟨h5, s, h6, h7, h8⟩ := UFMM.chain_run (FIM.chain64 Rounding.nearest Arith.zero (e := 0) rfl (le_refl _)) (UFMM.chainQ64 Rounding.nearest) ub noGoal (by decide)
    exact ⟨h5, s, h6, h7, by rw [h8]⟩
end FMV
