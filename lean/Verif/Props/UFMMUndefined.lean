import Verif.Props.UFMMDefined
import Verif.Props.UFMMExact
/-! C98: which runs of UFMM perform an undefined conversion to `unsigned`: none in exact arithmetic, some in doubles. -/
set_option linter.unusedSectionVars false
set_option linter.unusedVariables false
namespace FMV
open Spec Shape XR FMM

/-- **C98** (exact arithmetic): with an adequate window, the initialisation and every iteration of every run of UFMM perform only defined conversions. -/
theorem C98_exact_partial {dims : List Nat} {g : Grid XR} {h : ℝ} {v : Nat → ℝ} {pts : List Nat} (X : XInput dims g h v pts) (hfr : Fresh g)
    (ha : StartsApart dims g pts) {n : Nat} (hn : 0 < n) (hn' : n ≤ 4294967296) {inc : ℝ} (hinc : 0 < inc) (hwin : UFMM.WindowFits dims g h v n inc)
    (ub : XR → Nat) (goal : Nat) :
    UFMM.initDefined g (UQ.create n (XR.fin inc) ub) pts ∧
    ∀ (m : Nat) (u : UFMM.St XR), Steps (UFMM.Step goal eikS) m (UFMM.init g (UQ.create n (XR.fin inc) ub) pts) u →
      Steps (UFMM.DStep goal eikS) m (UFMM.init g (UQ.create n (XR.fin inc) ub) pts) u := by
  constructor
  · have key : ∀ (l : List Nat) (s : UFMM.St XR), s.q.t0 = XR.fin 0 → s.q.size = n → s.q.incMax = XR.fin inc →
        UFMM.allDefined (fun s i => UFMM.pushDefined { s with g := s.g.setValue i Arith.zero } i) (fun s i => UFMM.push { s with g := s.g.setValue i Arith.zero } i) s l := by
      intro l
      induction l with
      | nil => intro s _ _ _; trivial
      | cons i l ih =>
        intro s h1 h2 h3
        refine ⟨.inr ?_, ih _ ?_ ?_ ?_⟩
        · dsimp only
          rw [Grid.value_setValue, if_pos rfl]
          exact UFMM.convDefined_window hn hn' hinc h2 h3 h1 (le_refl 0) (by linarith)
        · show ((s.q.push i ((s.g.setValue i Arith.zero).value i)).1).t0 = _
          rw [Grid.value_setValue, if_pos rfl]
          unfold UQ.push
          split
          · rfl
          · exact h1
        · show ((s.q.push i ((s.g.setValue i Arith.zero).value i)).1).size = _
          rw [UQ.push_size]; exact h2
        · exact (UQ.push_params _ _ _).1.trans h3
    exact key pts _ rfl rfl rfl
  · have hap : ∀ a ∈ pts, ∀ b ∈ g.shape.nbrs a, g.occ b = false → b ∉ pts := by
      intro a hap b hb ho hbp
      rw [X.shape] at hb
      have haN := X.inside a hap
      have hadj := ((FMM.axisAdjacent_iff X.fits (X.inside b hbp)).1 (nbrs_symm X.fits haN hb)).2
      exact ha b hbp a hap ho hadj
    have gen : ∀ (S u : UFMM.St XR) (m : Nat), S = UFMM.init g (UQ.create n (XR.fin inc) ub) pts → Steps (UFMM.Step goal eikS) m S u →
        Steps (UFMM.DStep goal eikS) m S u := by
      intro S u m hS hs
      induction hs with
      | refl => exact .refl _
      | tail h1 hst ih =>
        have h2 := h1
        rw [hS] at h2
        obtain ⟨rem, heap, θ, A⟩ := UFMM.XInv.reach X hfr ha hn hn' hinc hwin ub goal h2
        exact .tail (ih hS) (A.step (UFMM.nobX X) (StartsApart.nonAdj (UFMM.nobX X) ha) hn hn' hinc hwin hap (Grid.sameMap_nob g) hst).1
    intro m u hs
    exact gen _ u m rfl hs

/-- non-vacuity: a 3 x 3 grid, starts in opposite corners, 1000 buckets and a window of 2 -/
example : ∃ (g : Grid XR) (X : XInput [3,3] g 1 (fun _ => 1) [0, 8]), Fresh g ∧ StartsApart [3,3] g [0, 8] ∧ UFMM.WindowFits [3,3] g 1 (fun _ => 1) 1000 2 := by
  refine ⟨Grid.create [3,3] Arith.one (0,0), ⟨⟨by decide, by decide, by decide⟩, by decide, rfl, by decide, one_pos, rfl, fun _ _ _ => rfl⟩,
    ⟨fun _ => rfl, fun _ => rfl, fun _ => rfl⟩, ?_, ?_⟩
  · intro i hi j hj _ hadj
    obtain ⟨k, h0, h1, h2, h3⟩ := hadj
    fin_cases hi <;> fin_cases hj <;> revert h1 h2 h3 <;> (intro h1 h2 h3)
    all_goals
      have h4 : k = 0 ∨ k = 1 := by
        have : k < 2 := h1
        omega
      rcases h4 with rfl | rfl <;> revert h2 <;> decide
  · intro j _ _
    unfold XR.eps
    norm_num

/-! ### doubles -/
namespace UFMM
section
variable {F : Type} [Arith F]

/-- what the arithmetic must do: cell 2 is reached at `T` and goes to bucket 1, which begins at `d`, after `T`; cell 3 is reached at `T` too -/
structure UbOk (n : Nat) (h vB vC inc d T : F) : Prop where
  f0 : Arith.lt (Arith.zero : F) Arith.margin = true
  f1 : Arith.lt (Arith.one : F) Arith.margin = false
  fB : Arith.lt vB Arith.margin = false
  fC : Arith.lt vC Arith.margin = false
  i0 : Arith.isInf (Arith.zero : F) = false
  iT : Arith.isInf T = false
  ii : Arith.isInf (Arith.inf : F) = true
  z0 : Arith.lt (Arith.zero : F) Arith.inf = true
  tI : Arith.lt T Arith.inf = true
  e1 : Arith.add (Arith.zero : F) (Arith.div h vB) = T
  e2 : Arith.add T (Arith.div h vC) = T
  dl : Arith.div inc (Arith.ofNat n) = d
  t1 : Arith.add (Arith.zero : F) d = d
  c1 : Arith.floorU32 (Arith.div (Arith.mul (Arith.sub T Arith.zero) (Arith.ofNat n)) inc) = some 1
  c2 : Arith.floorU32 (Arith.div (Arith.mul (Arith.sub T d) (Arith.ofNat n)) inc) = none
  n2 : 2 < n

variable {n : Nat} {h vB vC inc d T : F} {t1 t2 t3 : F} {s1 s2 s3 : FMState} {g : Grid F}

theorem At_ufacts (A : UbOk n h vB vC inc d T) (S : FIM.At h Arith.zero vB vC t1 t2 t3 s1 s2 s3 g) :
    (g.occ 1 = true ∧ g.occ 2 = false ∧ g.occ 3 = false) ∧ (g.vel 2 = vB ∧ g.vel 3 = vC) ∧ g.leaf = h ∧ g.shape = Shape.mk' [2,2] := by
  refine ⟨⟨?_, ?_, ?_⟩, ⟨?_, ?_⟩, S.map.leaf, S.map.shape⟩
  · rw [SameMap.occ_eq S.map]; exact A.f0
  · rw [SameMap.occ_eq S.map]; exact A.fB
  · rw [SameMap.occ_eq S.map]; exact A.fC
  · rw [SameMap.vel_eq S.map]; rfl
  · rw [SameMap.vel_eq S.map]; rfl

theorem ubucket {t1 t2 t3 : F} {s1 s2 s3 : FMState} (S : FIM.At h Arith.zero vB vC t1 t2 t3 s1 s2 s3 g) (i b : Nat) : FIM.At h Arith.zero vB vC t1 t2 t3 s1 s2 s3 (g.setBucket i b) :=
  ⟨S.map.trans (sameMap_setBucket _ _ _), by simp [S.v0], by simp [S.v1], by simp [S.v2], by simp [S.v3], by simp [S.k0], by simp [S.k1], by simp [S.k2],
    by simp [S.k3]⟩

/-- the second iteration performs an undefined conversion, on which the bucket of cell 3 depends -/
theorem ub_run (A : UbOk n h vB vC inc d T) (ub : F → Nat) (goal : Nat) (hg : 4 ≤ goal) :
    ∃ s s', Steps (Step goal eikS) 1 (init (FIM.crossMap (F := F) h Arith.zero vB vC) (UQ.create n inc ub) [0]) s ∧ Step goal eikS s s' ∧ ¬ DStep goal eikS s s' ∧
      ∀ b, (∀ x, ub x = b) → b < n → (s'.g.cells 3).bucket = (b + 1) % n := by
  have n0 : (Shape.mk' [2,2]).nbrs 0 = [1, 2] := by decide
  have n2 : (Shape.mk' [2,2]).nbrs 2 = [3, 0] := by decide
  have hn2 := A.n2
  set g0 := ((FIM.crossMap (F := F) h Arith.zero vB vC).setValue 0 Arith.zero).setBucket 0 0 with hg0
  have e0 : init (FIM.crossMap (F := F) h Arith.zero vB vC) (UQ.create n inc ub) [0] =
      ⟨g0, ⟨fun k => if k = 0 then [0] else [], n, 1, Arith.zero, 0, d, inc, ub⟩, false⟩ := by
    show push _ 0 = _
    unfold push UQ.push
    dsimp only
    have : (UQ.create n inc ub).nb = 0 := rfl
    rw [if_pos this]
    rw [Grid.value_setValue, if_pos rfl, ← A.dl]
    rfl
  rw [e0]
  have S0 : FIM.At h Arith.zero vB vC Arith.inf Arith.inf Arith.inf .opn .opn .opn (g0.setState 0 .frozen) := by
    refine ⟨((sameMap_setValue _ _ _).trans (sameMap_setBucket _ _ _)).trans (sameMap_setState _ _ _), ?_, ?_, ?_, ?_, ?_, ?_, ?_, ?_⟩
    · rw [hg0, Grid.value_setState, Grid.value_setBucket, Grid.value_setValue, if_pos rfl]
    · rw [hg0, Grid.value_setState, Grid.value_setBucket, Grid.value_setValue, if_neg (by decide)]; rfl
    · rw [hg0, Grid.value_setState, Grid.value_setBucket, Grid.value_setValue, if_neg (by decide)]; rfl
    · rw [hg0, Grid.value_setState, Grid.value_setBucket, Grid.value_setValue, if_neg (by decide)]; rfl
    · rw [Grid.state_setState, if_pos rfl]
    · rw [Grid.state_setState, if_neg (by decide), hg0, Grid.state_setBucket, Grid.state_setValue]; rfl
    · rw [Grid.state_setState, if_neg (by decide), hg0, Grid.state_setBucket, Grid.state_setValue]; rfl
    · rw [Grid.state_setState, if_neg (by decide), hg0, Grid.state_setBucket, Grid.state_setValue]; rfl
  have st1 : ∃ g1, Step goal eikS ⟨g0, ⟨fun k => if k = 0 then [0] else [], n, 1, Arith.zero, 0, d, inc, ub⟩, false⟩
      ⟨g1, ⟨fun k => if k = 1 then [2] else [], n, 1, Arith.zero, 0, d, inc, ub⟩, false⟩ ∧ FIM.At h Arith.zero vB vC Arith.inf T Arith.inf .opn .narrow .opn g1 := by
    set q0 : UQ F := ⟨fun k => if k = 0 then [0] else [], n, 1, Arith.zero, 0, d, inc, ub⟩ with hq0
    have hsh : q0.Shows 0 := rfl
    obtain ⟨⟨o1, o2, _⟩, ⟨w2, _⟩, lf, sh⟩ := At_ufacts A S0
    have sh0 : g0.shape.nbrs 0 = [1, 2] := n0
    have he : (eikS (g0.setState 0 .frozen) 2).1 = T := by
      rw [FIM.eik22 sh (by decide), (FIM.min22 sh).2.2.1.1, (FIM.min22 sh).2.2.1.2, S0.v0, S0.v3, S0.v2, lf, w2]
      have e : ([Arith.inf, Arith.zero].filter (fun t : F => !(Arith.isInf t) && Arith.lt t Arith.inf)) = [Arith.zero] := by simp [A.i0, A.ii, A.z0]
      rw [e]
      exact A.e1
    have r1 := relax_skip (eik := eikS) (s := (⟨g0.setState 0 .frozen, q0, false⟩ : St F)) (j := 1) (.inr o1)
    have r2 := relax_new (eik := eikS) (s := (⟨g0.setState 0 .frozen, q0, false⟩ : St F)) (j := 2) (b := 1) S0.k2 o2 he
      (by show (1:Nat) ≠ 0; omega) A.c1 (by show 1 + 0 < n; omega)
    have S1 := ubucket ((S0.mark (i := 2) (k := .narrow) (by decide)).set (i := 2) (t := T) (scr := (eikS (g0.setState 0 .frozen) 2).2) (by decide)) 2 (1 + q0.i0)
    simp only [if_true, show ¬ (1 = 2) by decide, show ¬ (3 = 2) by decide, if_false] at S1
    refine ⟨_, ⟨?_, 0, ?_, ?_⟩, S1⟩
    · rintro (h | h)
      · cases h
      · exact absurd (show (1:Nat) = 0 from h) (by omega)
    · show q0.top.2 = some 0
      rw [hsh.top]
    · show _ = expand goal eikS ⟨g0, q0.top.1, false⟩ 0
      rw [hsh.top]
      unfold expand
      dsimp only
      rw [sh0]
      simp only [List.foldl_cons, List.foldl_nil]
      rw [r1.1, r2.1]
      dsimp only
      rw [if_neg (by omega)]
      congr 1
      unfold UQ.pop
      have hs : (({ q0 with nb := q0.nb + 1 } : UQ F).cons (1 + q0.i0) 2).settle = (({ q0 with nb := q0.nb + 1 } : UQ F).cons (1 + q0.i0) 2) := by
        refine UQ.advance_stay _ _ ?_
        show (if 0 = 1 + 0 then [2] else [0]) ≠ []
        rw [if_neg (by omega)]; simp
      rw [hs, if_neg (by show ¬ (1 + 1 = 0); omega)]
      show UQ.mk _ _ _ _ _ _ _ _ = UQ.mk _ _ _ _ _ _ _ _
      congr 1
      funext k
      show _ = if k = 0 then (if k = 1 + 0 then 2 :: (if k = 0 then [0] else []) else (if k = 0 then [0] else [])).dropLast else (if k = 1 + 0 then 2 :: (if k = 0 then [0] else []) else (if k = 0 then [0] else []))
      by_cases hk : k = 0
      · subst hk; rw [if_neg (by omega)]; simp
      · simp [hk]
  obtain ⟨g1, d1, S1⟩ := st1
  set q1 : UQ F := ⟨fun k => if k = 1 then [2] else [], n, 1, Arith.zero, 0, d, inc, ub⟩ with hq1
  set q2 : UQ F := ⟨fun k => if k = 1 then [2] else [], n, 1, d, 1, d, inc, ub⟩ with hq2
  have hset : q1.settle = q2 := by
    unfold UQ.settle
    rw [advance_to 1 _ q1 (by show 1 ≤ n; omega) (by show 0 + 1 < n; omega)
      (fun j hj => by show (if 0 + j = 1 then [2] else []) = []; rw [if_neg (by omega)])
      (by show (if 0 + 1 = 1 then [2] else []) ≠ []; rw [if_pos (by omega)]; simp)]
    show UQ.mk _ _ _ _ _ _ _ _ = UQ.mk _ _ _ _ _ _ _ _
    congr 1
    exact A.t1
  have htop : q1.top = (q2, some 2) := by
    unfold UQ.top; rw [hset]; rfl
  have S1' := S1.mark (i := 2) (k := .frozen) (by decide)
  simp only [if_true, show ¬ (1 = 2) by decide, show ¬ (3 = 2) by decide, if_false] at S1'
  obtain ⟨⟨o1, _, o3⟩, ⟨_, w3⟩, lf, sh⟩ := At_ufacts A S1'
  have sh0 : g1.shape.nbrs 2 = [3, 0] := by rw [show g1.shape = Shape.mk' [2,2] from sh]; exact n2
  have he : (eikS (g1.setState 2 .frozen) 3).1 = T := by
    rw [FIM.eik22 sh (by decide), (FIM.min22 sh).2.2.2.1, (FIM.min22 sh).2.2.2.2, S1'.v1, S1'.v2, S1'.v3, lf, w3]
    have e : ([T, Arith.inf].filter (fun t : F => !(Arith.isInf t) && Arith.lt t Arith.inf)) = [T] := by simp [A.iT, A.ii, A.tI]
    rw [e]
    exact A.e2
  have hnsk : ¬ ((g1.setState 2 .frozen).state 3 = .frozen ∨ (g1.setState 2 .frozen).occ 3 = true) := by rw [S1'.k3, o3]; simp
  refine ⟨⟨g1, q1, false⟩, expand goal eikS ⟨g1, q1.top.1, false⟩ 2, .tail (.refl _) d1, ⟨?_, 2, by show q1.top.2 = _; rw [htop], rfl⟩, ?_, ?_⟩
  · rintro (h | h)
    · cases h
    · exact absurd (show (1:Nat) = 0 from h) (by omega)
  · rintro ⟨_, hd⟩
    have h1 := hd 2 (by show q1.top.2 = _; rw [htop])
    have h2 : allDefined (relaxDefined eikS) (relax eikS) ⟨g1.setState 2 .frozen, q1.top.1, false⟩ (g1.shape.nbrs 2) := h1
    rw [htop, sh0] at h2
    have h3 := h2.1
    unfold relaxDefined at h3
    rw [if_neg hnsk] at h3
    dsimp only at h3
    rw [if_neg (by rw [S1'.k3]; simp), he] at h3
    rcases h3 with h4 | h4
    · exact absurd (show (1:Nat) = 0 from h4) (by omega)
    · dsimp only at h4
      rw [Grid.value_setValue, if_pos rfl] at h4
      unfold UQ.convDefined at h4
      have : Arith.floorU32 (Arith.div (Arith.mul (Arith.sub T q2.t0) (Arith.ofNat q2.size)) q2.incMax) = none := A.c2
      rw [this] at h4
      cases h4
  · intro b hb hbn
    rw [htop]
    unfold expand
    dsimp only
    rw [sh0]
    simp only [List.foldl_cons, List.foldl_nil]
    have hbk : q2.bucketOf T = (b + 1) % n := by
      unfold UQ.bucketOf UQ.rawIdx
      dsimp only
      have : Arith.floorU32 (Arith.div (Arith.mul (Arith.sub T q2.t0) (Arith.ofNat q2.size)) q2.incMax) = none := A.c2
      rw [this]
      show ((if n ≤ ub _ then n - 1 else ub _) + 1) % n = _
      rw [hb, if_neg (by omega)]
    have hr : relax eikS (⟨g1.setState 2 .frozen, q2, false⟩ : St F) 3 =
        push ⟨(((g1.setState 2 .frozen).setScratch (eikS (g1.setState 2 .frozen) 3).2).setState 3 .narrow).setValue 3 T, q2, false⟩ 3 := by
      unfold relax
      rw [if_neg hnsk]
      dsimp only
      rw [if_neg (by rw [S1'.k3]; simp), he]
    rw [hr]
    have hp : push (⟨(((g1.setState 2 .frozen).setScratch (eikS (g1.setState 2 .frozen) 3).2).setState 3 .narrow).setValue 3 T, q2, false⟩ : St F) 3 =
        ⟨((((g1.setState 2 .frozen).setScratch (eikS (g1.setState 2 .frozen) 3).2).setState 3 .narrow).setValue 3 T).setBucket 3 ((b + 1) % n),
          (({ q2 with nb := q2.nb + 1 } : UQ F).cons ((b + 1) % n) 3), false⟩ := by
      unfold push UQ.push
      dsimp only
      rw [Grid.value_setValue, if_pos rfl, if_neg (by show ¬ ((1:Nat) = 0); omega), hbk]
    rw [hp]
    have S2 := ubucket ((S1'.mark (i := 3) (k := .narrow) (by decide)).set (i := 3) (t := T) (scr := (eikS (g1.setState 2 .frozen) 3).2) (by decide)) 3 ((b + 1) % n)
    have r2 := relax_skip (eik := eikS) (s := (⟨((((g1.setState 2 .frozen).setScratch (eikS (g1.setState 2 .frozen) 3).2).setState 3 .narrow).setValue 3 T).setBucket 3 ((b + 1) % n), (({ q2 with nb := q2.nb + 1 } : UQ F).cons ((b + 1) % n) 3), false⟩ : St F)) (j := 0)
      (.inl S2.k0)
    rw [r2.1]
    dsimp only
    rw [cells_setBucket, if_pos rfl]
end

open GMM (dbl dbl_add) in
open FIM (isd dbl_mul dbl_sub dbl_quot dbl_rat dbl_lt nearest_rd dbl_congr) in
theorem ub64 : ∃ hj : IsDouble ((7205759403792793:ℤ) / 2^55 : ℝ), ∃ hC : IsDouble (((2^60:ℤ):ℝ)), ∃ hd : IsDouble ((7205759403792794:ℤ) / 2^55 : ℝ), ∃ h5 : IsDouble (5:ℝ),
    UbOk 25 (dbl _ hj) (Arith.one : F64 Rounding.nearest) (dbl _ hC) (dbl _ h5) (dbl _ hd) (dbl _ hj) := by
  have hj : IsDouble ((7205759403792793:ℤ) / 2^55 : ℝ) := isd _ _
  have hd : IsDouble ((7205759403792794:ℤ) / 2^55 : ℝ) := isd _ _
  have hC : IsDouble (((2^60:ℤ):ℝ)) := by
    have := IsDouble.pow (e := 60) (by norm_num) (by norm_num)
    push_cast; exact_mod_cast this
  have h5 : IsDouble (5:ℝ) := by have := isd 5 0; norm_num at this; exact this
  have h25 : IsDouble (25:ℝ) := by have := isd 25 0; norm_num at this; exact this
  have hjC : IsDouble ((7205759403792793:ℤ) / 2^115 : ℝ) := isd _ _
  have hm1 : IsDouble ((-1:ℤ) / 2^55 : ℝ) := isd _ _
  have hm25 : IsDouble ((-25:ℤ) / 2^55 : ℝ) := isd _ _
  have hm5 : IsDouble ((-5:ℤ) / 2^55 : ℝ) := isd _ _
  have z0 : (Arith.zero : F64 Rounding.nearest) = dbl 0 IsDouble.zero := rfl
  have o1 : (Arith.one : F64 Rounding.nearest) = dbl 1 IsDouble.one := rfl
  have mg : (Arith.margin : F64 Rounding.nearest) = dbl _ IsDouble.eps := rfl
  have n25 : (Arith.ofNat 25 : F64 Rounding.nearest) = dbl 25 h25 := dbl_rat _ (by norm_num)
  have ev : XR.eps = 100000 / 2^52 := by unfold XR.eps; norm_num
  have ex : ∀ {x z : ℝ} (hz : IsDouble z), x = z → Rounding.nearest.rd x = .fin z := fun hz h => by rw [h]; exact Rounding.nearest.exact _ hz
  refine ⟨hj, hC, hd, h5, ⟨?_, ?_, ?_, ?_, rfl, rfl, rfl, rfl, rfl, ?_, ?_, ?_, ?_, ?_, ?_, by norm_num⟩⟩
  · rw [z0, mg, dbl_lt, ev]; norm_num
  · rw [o1, mg, dbl_lt, ev]; norm_num
  · rw [o1, mg, dbl_lt, ev]; norm_num
  · rw [mg, dbl_lt, ev]; norm_num
  · rw [o1, dbl_quot hj IsDouble.one one_ne_zero hj (ex hj (by rw [div_one])), z0]
    exact dbl_add _ _ _ (ex hj (by rw [zero_add]))
  · rw [dbl_quot hj hC (by norm_num) hjC (ex hjC (by norm_num))]
    exact dbl_add _ _ _ (nearest_rd 7205759403792793 55 (by norm_num) (by norm_num) (by norm_num) (by norm_num) (by norm_num) (by norm_num))
  · rw [n25]
    exact dbl_quot h5 h25 (by norm_num) hd (nearest_rd 7205759403792794 55 (by norm_num) (by norm_num) (by norm_num) (by norm_num) (by norm_num) (by norm_num))
  · rw [z0]; exact dbl_add _ _ _ (ex hd (by rw [zero_add]))
  · rw [z0, dbl_sub hj IsDouble.zero hj (ex hj (by rw [sub_zero])), n25,
      dbl_mul hj h25 h5 (nearest_rd 5629499534213120 50 (by norm_num) (by norm_num) (by norm_num) (by norm_num) (by norm_num) (by norm_num)),
      dbl_quot h5 h5 (by norm_num) IsDouble.one (ex IsDouble.one (by norm_num))]
    show (if 0 ≤ ⌊(1:ℝ)⌋ ∧ ⌊(1:ℝ)⌋ < 4294967296 then some ⌊(1:ℝ)⌋.toNat else none) = some 1
    rw [show ⌊(1:ℝ)⌋ = 1 from Int.floor_one, if_pos (by norm_num)]; rfl
  · rw [dbl_sub hj hd hm1 (ex hm1 (by norm_num)), n25, dbl_mul hm1 h25 hm25 (ex hm25 (by norm_num)), dbl_quot hm25 h5 (by norm_num) hm5 (ex hm5 (by norm_num))]
    show (if 0 ≤ ⌊((-5:ℤ) / 2^55 : ℝ)⌋ ∧ ⌊((-5:ℤ) / 2^55 : ℝ)⌋ < 4294967296 then _ else none) = none
    have : ⌊((-5:ℤ) / 2^55 : ℝ)⌋ < 0 := by
      rw [Int.floor_lt]; norm_num
    rw [if_neg (by omega)]
end UFMM

/-- **C98** is false in doubles (finding): with rounding to nearest, a 2 x 2 map, one initial point, positive speeds, 25 buckets and a window of 5 - more than twenty times the time
needed to cross any cell - the second iteration of UFMM converts a negative number to `unsigned`, which is undefined behaviour, and the bucket in which the cell is put
depends on what this conversion yields: any of the 25 buckets is possible. -/
theorem C98_refuted_doubles : ∃ (g : Grid (F64 Rounding.nearest)) (inc : F64 Rounding.nearest), Input [2,2] g [0] ∧ Fresh g ∧ StartsApart [2,2] g [0] ∧ inc.1 = .fin 5 ∧
    (∃ h : ℝ, g.leaf.1 = .fin h ∧ 0 < h ∧ h < 1 / 5) ∧ (∀ i, i < 4 → g.occ i = false → ∃ v : ℝ, (g.vel i).1 = .fin v ∧ 1 ≤ v) ∧
    ∀ (ub : F64 Rounding.nearest → Nat) (goal : Nat), 4 ≤ goal → ∃ s s', Steps (UFMM.Step goal eikS) 1 (UFMM.init g (UQ.create 25 inc ub) [0]) s ∧ UFMM.Step goal eikS s s' ∧
      ¬ UFMM.DStep goal eikS s s' ∧ ∀ b, (∀ x, ub x = b) → b < 25 → (s'.g.cells 3).bucket = (b + 1) % 25 := by
  obtain ⟨hj, hC, hd, h5, A⟩ := UFMM.ub64
  refine ⟨FIM.crossMap (GMM.dbl _ hj) Arith.zero Arith.one (GMM.dbl _ hC), GMM.dbl _ h5, ⟨⟨by decide, by decide, by decide⟩, rfl, by decide⟩,
    ⟨fun _ => rfl, fun _ => rfl, fun _ => rfl⟩, ?_, rfl, ⟨_, rfl, by norm_num, by norm_num⟩, ?_, fun ub goal hg => UFMM.ub_run A ub goal hg⟩
  · intro i hi j hj _ hadj
    simp only [List.mem_singleton] at hi hj
    subst hi; subst hj
    obtain ⟨k, h0, h1, h2, h3⟩ := hadj
    have h4 : k = 0 ∨ k = 1 := by
      have : k < 2 := h1
      omega
    rcases h4 with rfl | rfl <;> revert h2 <;> decide
  · intro i hi ho
    rcases (show i = 0 ∨ i = 1 ∨ i = 2 ∨ i = 3 by omega) with rfl | rfl | rfl | rfl
    · exact ⟨1, rfl, le_refl _⟩
    · exact absurd (show Arith.lt (Arith.zero : F64 Rounding.nearest) Arith.margin = false from ho) (by rw [A.f0]; simp)
    · exact ⟨1, rfl, le_refl _⟩
    · exact ⟨_, rfl, by norm_num⟩
end FMV
