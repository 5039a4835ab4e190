import Verif.Lemmas.UFMMF64
import Verif.Spec.QueueFits
/-! C95: UFMM in doubles.  Missing for the full property: platforms where the undefined conversion of a number in (-1,0) gives something else than 0 (hypothesis
`RoundsUp`), in runs where it happens. -/
set_option linter.unusedSectionVars false
set_option linter.unusedVariables false
namespace FMV
open Spec Shape XR FMM
variable {R : Rounding}
namespace UFMM
variable {dims : List Nat} {g : Grid (F64 R)} {h : ℝ} {v : Nat → ℝ} {pts : List Nat} {cm cM A : ℝ}

/-- in doubles, too, the initial points go to the first bucket -/
theorem zeroFirst_f64 {n : Nat} {inc : F64 R} {i : ℝ} (hi : inc.1 = .fin i) (hinc : 0 < i) (hn : n ≤ 2^30) (ub : F64 R → Nat) (pts : List Nat) :
    ZeroFirst n inc ub pts := by
  right
  have r0 : R.rd 0 = fin 0 := R.exact 0 (by have := isDouble_nat (n := 0) (by norm_num); simpa using this)
  have hof : (Arith.ofNat n : F64 R).1 = .fin (n : ℝ) := by
    show R.rd (((n : Int) : ℝ) / ((1 : Nat) : ℝ)) = _
    have : ((n : Int) : ℝ) / ((1 : Nat) : ℝ) = n := by push_cast; ring
    rw [this]
    exact R.exact _ (isDouble_nat (by omega))
  have hx : (Arith.div (Arith.mul (Arith.sub (Arith.zero : F64 R) (Arith.zero : F64 R)) (Arith.ofNat n)) inc : F64 R).1 = XR.fin 0 := by
    have e1 : (Arith.sub (Arith.zero : F64 R) (Arith.zero : F64 R) : F64 R).1 = .fin 0 := by
      show R.rd ((0:ℝ) + -0) = _
      rw [neg_zero, add_zero]; exact r0
    have e2 : (Arith.mul (Arith.sub (Arith.zero : F64 R) (Arith.zero : F64 R)) (Arith.ofNat n) : F64 R).1 = .fin 0 := by
      show (F64.rnd R (XR.mul (Arith.sub (Arith.zero : F64 R) (Arith.zero : F64 R) : F64 R).1 (Arith.ofNat n : F64 R).1)).1 = _
      rw [e1, hof]
      show R.rd (0 * (n:ℝ)) = _
      rw [zero_mul]; exact r0
    show (F64.rnd R (XR.div (Arith.mul (Arith.sub (Arith.zero : F64 R) (Arith.zero : F64 R)) (Arith.ofNat n) : F64 R).1 inc.1)).1 = _
    rw [e2, hi]
    simp only [XR.div, if_neg hinc.ne', zero_div]
    exact r0
  unfold UQ.rawIdx
  dsimp only
  show (Arith.floorU32 (Arith.div (Arith.mul (Arith.sub (Arith.zero : F64 R) (Arith.zero : F64 R)) (Arith.ofNat n)) inc : F64 R).1).getD _ = _
  rw [hx]
  show (if 0 ≤ ⌊(0:ℝ)⌋ ∧ ⌊(0:ℝ)⌋ < 4294967296 then some ⌊(0:ℝ)⌋.toNat else none).getD _ = 0
  simp

theorem create_delta64 {n : Nat} (hn : 0 < n) (hn' : n ≤ 2^30) {inc : F64 R} {i : ℝ} (hi : inc.1 = .fin i) (h1 : (2:ℝ)^(-900:ℤ) ≤ i) (h2 : i ≤ (2:ℝ)^(900:ℤ))
    (ub : F64 R → Nat) : ∃ d : ℝ, (UQ.create n inc ub).delta.1 = .fin d ∧ |d - i / n| ≤ uu * i := by
  have hip : 0 < i := lt_of_lt_of_le (zpow_pos (by norm_num) _) h1
  have hnR : (0 : ℝ) < n := by exact_mod_cast hn
  have hn1 : (1 : ℝ) ≤ n := by exact_mod_cast hn
  have hof : (Arith.ofNat n : F64 R).1 = .fin (n : ℝ) := by
    show R.rd (((n : Int) : ℝ) / ((1 : Nat) : ℝ)) = _
    have : ((n : Int) : ℝ) / ((1 : Nat) : ℝ) = n := by push_cast; ring
    rw [this]
    exact R.exact _ (isDouble_nat (by omega))
  have hb : |i / n| ≤ i := by
    rw [abs_of_pos (div_pos hip hnR)]; exact div_le_self hip.le hn1
  obtain ⟨d, d1, d2⟩ := rd_err R hb (le_trans (zpow_le_zpow_right₀ (by norm_num) (by norm_num)) h1)
    (le_trans h2 (zpow_le_zpow_right₀ (by norm_num) (by norm_num)))
  refine ⟨d, ?_, d2⟩
  show (F64.rnd R (XR.div inc.1 (Arith.ofNat n : F64 R).1)).1 = _
  rw [hi, hof]
  simp only [XR.div, if_neg hnR.ne']
  exact d1

theorem init_delta64 (g0 : Grid (F64 R)) (q : UQ (F64 R)) (pts : List Nat) : (init g0 q pts).q.delta = q.delta := by
  unfold init
  refine foldl_inv (I := fun s : St (F64 R) => s.q.delta = q.delta) _ _ _ rfl ?_
  intro s i _ hs
  exact (UQ.push_params _ _ _).2.trans hs

/-- Rounding noise can make a key smaller than the beginning of the queue by less than a bucket; `static_cast<unsigned>(floor(x))` is then undefined
(thirdparty/untidy_queue.hpp:107 and 180).  This says that such conversions give 0, as they would without `floor`.  A run in which no such conversion
happens is the same for all `ub`, so it is covered as well. -/
def RoundsUp (ub : F64 R → Nat) : Prop := ∀ x : F64 R, ∀ r : ℝ, x.1 = .fin r → -1 < r → r < 0 → ub x = 0

theorem XInv64.start (I : DInput dims g h v pts cm cM A) (hfr : Fresh g) {n : Nat} {inc w : ℝ} {L : Nat} (K : QOk n inc A w (I.θ + 2 * I.β))
    (P : I.nob.X.Par I.θ I.β w L) {incF : F64 R} (hi : incF.1 = .fin inc) {ub : F64 R → Nat} (hub : RoundsUp ub) :
    XInv64 I.nob n inc w L g (init g (UQ.create n incF ub) pts) pts.reverse pts.reverse (0 - n * qerr A inc) := by
  have hincp : 0 < inc := lt_of_lt_of_le (zpow_pos (by norm_num) _) K.inc1
  have hn := K.pos
  have hz := zeroFirst_f64 hi hincp K.le ub pts
  obtain ⟨J, hc⟩ := inv_init (g0 := g) hfr.state hn hz
  obtain ⟨_, _, _, g4, _⟩ := init_g g (UQ.create n incF ub) pts
  have F := DInput.FInv.start I.nob (w := w) (L := L) P (g := g.nob) ⟨hfr.value, hfr.state, hfr.hValue⟩ (cfg := fcfg noGoal) rfl
  have eg : (init g (UQ.create n incF ub) pts).g.nob = (FMM.init (fcfg noGoal) g.nob [] pts).g := g4 noGoal
  have hop : ∀ k, (FMM.init (fcfg noGoal) g.nob [] pts).g.state k = .opn := by
    intro k; rw [FMM.init_state]; exact hfr.state k
  have eh : (FMM.init (fcfg noGoal) g.nob [] pts).heap = pts.reverse := by rw [FMM.init_heap]; simp
  obtain ⟨_, _, h3, h4, h5, h6, h7⟩ := init_q g hn incF ub pts hz
  have hu := uu_pos
  have hA0 := K.A0
  have hq0 : 0 ≤ qerr A inc := by unfold qerr; positivity
  have hnq : 0 ≤ n * qerr A inc := by positivity
  have hnR : (0 : ℝ) < n := by exact_mod_cast K.pos
  have hδ : 0 < inc / n := div_pos hincp hnR
  have hΔ : 0 ≤ inc / n + 2 * (n * qerr A inc) := by linarith
  refine ⟨J, hc, ?_, ?_, ?_, ?_, ?_, Or.inr ⟨0, le_refl _, rfl, ⟨h3, by rw [h6]; exact hi, ?_, by rw [h5]; rfl, by rw [h7]; exact hub, ?_⟩⟩⟩
  · rw [eg]; exact F.map
  · rw [eg]; exact F.good
  · rw [eg]; exact F.hz
  · rw [eg]
    have B := F.q
    rw [eh] at B
    exact
    { nn := B.nn, heapN := B.heapN, fzN := B.fzN, finF := B.finF, finH := B.finH, heapK := B.heapK, nar := B.nar, opn := B.opn, ini := B.ini,
      pos := B.pos
      bnd := by
        intro k r hr
        have hv : ((FMM.init (fcfg noGoal) g.nob [] pts).g.value k).1 = if k ∈ pts then fin 0 else pinf := by
          rw [init_value]; split
          · rfl
          · exact congrArg Subtype.val (hfr.value k)
        rw [tf_eq, hv] at hr
        split at hr
        · have : r = 0 := (WithTop.coe_eq_coe.1 (show ((0:ℝ) : WithTop ℝ) = (r : WithTop ℝ) from hr)).symm
          have h1 := P.w0
          have h2 := P.θ0
          have h3 := P.β0
          rw [this]
          have : 0 ≤ w + (I.θ + 2 * I.β + (inc / n + 2 * (n * qerr A inc))) := by linarith
          exact mul_nonneg this (by positivity)
        · exact absurd hr (by simp [toT])
      rch := B.rch
      dist := by intro i d hi; rw [hop] at hi; cases hi
      fzle := by intro j hj; rw [hop] at hj; cases hj
      nfge := by
        intro j _ _
        have h2 := P.θ0
        have h3 := P.β0
        refine le_trans ?_ (le_trans (B.nn j) (le_add_of_nonneg_right ?_))
        · have : (0:ℝ) - n * qerr A inc ≤ 0 := by linarith
          exact_mod_cast this
        · have : 0 ≤ I.θ + 2 * I.β := by linarith
          exact_mod_cast this
      i2f := by intro j hj; rw [hop] at hj; cases hj
      i3 := by
        intro k _ hk ho hkp Y hY
        have hall : ∀ m ∈ mins (Shape.mk' dims) (XInput.Tf (tf (FMM.init (fcfg noGoal) g.nob [] pts).g) (FMM.init (fcfg noGoal) g.nob [] pts).g.state) k, m = ⊤ := by
          intro m hm
          by_contra hne
          obtain ⟨a, _, e⟩ := XInput.mem_mins hm hne
          apply hne
          rw [e]; unfold XInput.Tf
          rw [if_neg (by rw [hop]; simp)]
        have hzero : residL Y (mins (Shape.mk' dims) (XInput.Tf (tf (FMM.init (fcfg noGoal) g.nob [] pts).g) (FMM.init (fcfg noGoal) g.nob [] pts).g.state) k) = 0 := by
          generalize mins (Shape.mk' dims) _ k = ms at hall
          induction ms with
          | nil => simp
          | cons m ms ih =>
            rw [residL_cons, hall m (by simp), posSq_top, ih (fun m hm => hall m (by simp [hm])), zero_add]
        rw [hzero]
        have := P.θc k hk ho
        have : 0 < h / v k - I.θ := by linarith
        exact pow_pos this 2
      closed := B.closed
      i2n := B.i2n
      n1 := B.n1 }
  · intro U hU k hk
    rw [eg, tf_eq, init_value]
    split
    · next hp =>
      rw [((I.nob.X.exSol hU) k hk).1 hp, scl_zero]
      exact le_refl _
    · rw [show (g.nob.value k) = _ from hfr.value k]; exact le_top
  · rw [init_delta64]; exact create_delta64 hn K.le hi K.inc1 K.inc2 ub
  · intro j hj
    have : (init g (UQ.create n incF ub) pts).g.nob.state j = .narrow := hj
    rw [eg, hop] at this; cases this

theorem XInv64.reach (I : DInput dims g h v pts cm cM A) (hfr : Fresh g) (ha : StartsApart dims g pts) {n : Nat} {inc w : ℝ} {L : Nat}
    (K : QOk n inc A w (I.θ + 2 * I.β)) (P : I.nob.X.Par I.θ I.β w L) (hwA : (w + (I.θ + 2 * I.β + (inc / n + 2 * (n * qerr A inc)))) * (L + 2) ≤ A)
    {incF : F64 R} (hi : incF.1 = .fin inc) {ub : F64 R → Nat} (hub : RoundsUp ub) (goal : Nat) {m : Nat} {u : St (F64 R)}
    (hs : Steps (Step goal eikS) m (init g (UQ.create n incF ub) pts) u) : ∃ rem heap Θ, XInv64 I.nob n inc w L g u rem heap Θ := by
  refine Steps.inv (I := fun u => ∃ rem heap Θ, XInv64 I.nob n inc w L g u rem heap Θ) ?_ hs ⟨_, _, _, XInv64.start I hfr K P hi hub⟩
  rintro s t ⟨rem, heap, Θ, J⟩ hst
  have hna : I.nob.X.NonAdj := by
    intro i hi ho j hj hjp
    exact ha i hi j hjp ho ((axisAdjacent_iff I.X.fits (I.X.inside i hi)).1 hj).2
  refine J.step I.nob hna K P hwA ?_ (Grid.sameMap_nob g) hst
  intro a hap b hb ho hbp
  have hb' : b ∈ (Shape.mk' dims).nbrs a := by
    have : g.shape = Shape.mk' dims := I.X.shape
    rw [← this]; exact hb
  have haN := I.X.inside a hap
  have hadj := ((FMM.axisAdjacent_iff I.X.fits (I.X.inside b hbp)).1 (nbrs_symm I.X.fits haN hb')).2
  exact ha b hbp a hap ho hadj

end UFMM

section final
open UFMM
variable {dims : List Nat} {g : Grid (F64 R)} {h : ℝ} {v : Nat → ℝ} {pts : List Nat} {cm cM A inc : ℝ} {n : Nat}

theorem DInput.qok (I : DInput dims g h v pts cm cM A) (hcc : cm ≤ cM) (Q : QueueFits dims.length n cm cM A inc) :
    QOk n inc A (2 * cM) (I.θ + 2 * I.β) ∧ 0 < inc / n ∧ I.θ + 2 * I.β + 2 * (n * qerr A inc) ≤ inc / n := by
  have hn : (0 : ℝ) < n := by exact_mod_cast Q.pos
  have hn1 : (1 : ℝ) ≤ n := by exact_mod_cast Q.pos
  have hc := I.cm0
  have hA := I.Apos
  have hu := uu_pos
  have hθ := I.θ_nonneg
  have hβ := I.β_pos
  have hD := I.D2
  have hinc := Q.inc0
  have hδ : 0 < inc / n := div_pos hinc hn
  have eq2 : 2 * (n * qerr A inc) = n * (A + inc) / 2^46 := by
    unfold qerr uu; ring
  have hq0 : 0 ≤ qerr A inc := by unfold qerr; positivity
  have hnq : 1 * qerr A inc ≤ n * qerr A inc := mul_le_mul_of_nonneg_right hn1 hq0
  have h9 : 9 * uu * inc ≤ qerr A inc := by
    have h1 : 0 ≤ uu * A := by positivity
    have h2 : 0 ≤ uu * inc := by positivity
    unfold qerr; linarith
  have hE : I.θ + 2 * I.β ≤ relErr dims.length cm A * cm := by
    have h1 := I.relErr_ge.1
    rw [div_le_iff₀ hc] at h1
    have h2 : 1 * (I.θ + 2 * I.β) ≤ 2 * dims.length * (I.θ + 2 * I.β) := mul_le_mul_of_nonneg_right (by linarith) (by linarith)
    linarith
  have hwide := Q.wide
  have hwin := Q.win
  refine ⟨⟨Q.pos, Q.le, ?_, ?_, hA.le, I.A2, by linarith, by linarith, ?_, ?_⟩, hδ, by linarith⟩
  · have h1 : 4 * eps ≤ inc := by have := I.margin; linarith
    refine le_trans ?_ h1
    have h2 : (2:ℝ)^(-900:ℤ) ≤ (2:ℝ)^(-52:ℤ) := zpow_le_zpow_right₀ (by norm_num) (by norm_num)
    have h3 : (2:ℝ)^(-52:ℤ) ≤ eps := by unfold XR.eps; rw [zpow_neg]; norm_num
    have h4 := eps_pos
    exact le_trans h2 (le_trans h3 (by linarith only [h4]))
  · exact le_trans Q.inc2 (zpow_le_zpow_right₀ (by norm_num) (by norm_num))
  · linarith
  · linarith

/-- the bound on all times used for UFMM -/
theorem DInput.uA (I : DInput dims g h v pts cm cM A) (hcc : cm ≤ cM) (Q : QueueFits dims.length n cm cM A inc) {K : Nat}
    (hA : (2 * cM + 2 * (inc / n)) * (K + 2) ≤ A) : (2 * cM + (I.θ + 2 * I.β + (inc / n + 2 * (n * qerr A inc)))) * (K + 2) ≤ A := by
  obtain ⟨_, _, h2⟩ := I.qok hcc Q
  refine le_trans (mul_le_mul_of_nonneg_right ?_ (by positivity)) hA
  linarith

theorem UFMM.reach64 {K : Nat} (I : DInput dims g h v pts cm cM A) (hcc : cm ≤ cM) (hK : Within dims g pts K)
    (hA : (2 * cM + 2 * (inc / n)) * (K + 2) ≤ A) (Q : QueueFits dims.length n cm cM A inc) (hfr : Fresh g) (ha : StartsApart dims g pts) {incF : F64 R} (hi : incF.1 = .fin inc)
    {ub : F64 R → Nat} (hub : RoundsUp ub) (goal : Nat) {m : Nat} {u : UFMM.St (F64 R)} (hs : Steps (UFMM.Step goal eikS) m (UFMM.init g (UQ.create n incF ub) pts) u) :
    ∃ rem heap Θ, XInv64 I.nob n inc (2 * cM) K g u rem heap Θ :=
  XInv64.reach I hfr ha (I.qok hcc Q).1 (I.nob.par hcc (K := K) hK) (I.uA hcc Q hA) hi hub goal hs

/-- **C95** (order): in doubles, at any moment of a UFMM run with a queue that suits the map, no FROZEN cell has a larger arrival time than a cell that is
not FROZEN by more than twice the width of a bucket. -/
theorem C95_order_partial {K : Nat} (I : DInput dims g h v pts cm cM A) (hcc : cm ≤ cM) (hK : Within dims g pts K)
    (hA : (2 * cM + 2 * (inc / n)) * (K + 2) ≤ A) (Q : QueueFits dims.length n cm cM A inc) (hfr : Fresh g) (ha : StartsApart dims g pts) (incF : F64 R) (hi : incF.1 = .fin inc)
    (ub : F64 R → Nat) (hub : RoundsUp ub) (goal m : Nat) (u : UFMM.St (F64 R)) (hs : Steps (UFMM.Step goal eikS) m (UFMM.init g (UQ.create n incF ub) pts) u)
    (i k : Nat) (hk : k < dims.prod) (hfi : u.g.state i = .frozen) (hfk : u.g.state k ≠ .frozen) :
    toT (u.g.value i).1 ≤ toT (u.g.value k).1 + ((2 * (inc / n) : ℝ) : WithTop ℝ) := by
  obtain ⟨rem, heap, Θ, J⟩ := UFMM.reach64 I hcc hK hA Q hfr ha hi hub goal hs
  obtain ⟨_, _, h2⟩ := I.qok hcc Q
  have h1 := J.vinv.fzle i hfi
  have h3 := J.vinv.nfge k hk hfk
  refine le_trans (show tf u.g.nob i ≤ _ from h1) ?_
  show _ ≤ tf u.g.nob k + _
  cases hT : tf u.g.nob k with
  | top => simp
  | coe t =>
    rw [hT] at h3
    have h4 : Θ ≤ t + (I.θ + 2 * I.β) := WithTop.coe_le_coe.1 h3
    have : Θ + (inc / n + 2 * (n * qerr A inc)) ≤ t + 2 * (inc / n) := by linarith
    exact_mod_cast this

/-- **C95** (accuracy): in doubles, with every operation rounded and a queue that suits the map, when the queue of UFMM is empty every time is the exact
solution `U` up to the relative error `queueErr`, `+inf` exactly where `U` is, and never NaN. -/
theorem C95_accuracy_partial {K : Nat} (I : DInput dims g h v pts cm cM A) (hcc : cm ≤ cM) (hK : Within dims g pts K)
    (hA : (2 * cM + 2 * (inc / n)) * (K + 2) ≤ A) (Q : QueueFits dims.length n cm cM A inc) (hfr : Fresh g) (ha : StartsApart dims g pts)
    (U : Nat → WithTop ℝ) (hU : I.X.problem.IsSolution U) (incF : F64 R) (hi : incF.1 = .fin inc)
    (ub : F64 R → Nat) (hub : RoundsUp ub) (goal m : Nat) (u : UFMM.St (F64 R)) (hs : Steps (UFMM.Step goal eikS) m (UFMM.init g (UQ.create n incF ub) pts) u)
    (hend : u.q.nb = 0) (i : Nat) (hiN : i < dims.prod) : RelClose (queueErr dims.length n cm A inc) (U i) (u.g.value i).1 := by
  obtain ⟨rem, heap, Θ, J⟩ := UFMM.reach64 I hcc hK hA Q hfr ha hi hub goal hs
  obtain ⟨OK, hδ, h2⟩ := I.qok hcc Q
  have hheap : heap = [] := by
    have := J.inv.wf.nb_zero.1 hend
    rw [J.cont] at this
    simpa using this
  have B := J.vinv
  have hnn : ∀ k, u.g.nob.state k ≠ .narrow := by
    intro k hk; have := (B.nar k hk).1; rw [hheap] at this; simp at this
  have hfp : ∀ k ∈ pts, u.g.nob.state k = .frozen := by
    intro k hk
    rcases (B.ini k hk).2 with h1 | h1
    · exact h1
    · rw [hheap] at h1; simp at h1
  have hnf : ∀ k, u.g.nob.state k ≠ .frozen → tf u.g.nob k = ⊤ := by
    intro k hk
    cases hst : u.g.nob.state k with
    | frozen => exact absurd hst hk
    | narrow => exact absurd hst (hnn k)
    | opn => exact B.opn k hst (fun hp => hk (hfp k hp))
  have hTf : XInput.Tf (tf u.g.nob) u.g.nob.state = tf u.g.nob := by
    funext k; unfold XInput.Tf; split
    · rfl
    · next hk => exact (hnf k hk).symm
  have hθ := I.θ_nonneg
  have hβ := I.β_pos
  have hu := uu_pos
  have hq0 : 0 ≤ n * qerr A inc := by
    have : 0 ≤ qerr A inc := by
      have h1 := I.Apos
      have h3 := Q.inc0
      unfold qerr; positivity
    positivity
  have hup : tf u.g.nob i ≤ scl (1 + 2 * dims.length * (I.θ + 2 * I.β + (inc / n + 2 * (n * qerr A inc))) / cm) (U i) := by
    refine I.nob.X.accuracy_rel hU (T := tf u.g.nob) (by linarith) I.cm0 I.lo (fun k hk => le_of_eq (B.ini k hk).1) ?_ i hiN
    intro j hj ho hjp
    by_cases hjf : u.g.nob.state j = .frozen
    · intro Y hY
      exact B.i2f j hjf hjp Y (by rw [hTf]; exact hY)
    · refine I.nob.X.conv_lonely hj ho ?_
      intro k hk
      by_contra hne
      have hkf : u.g.nob.state k = .frozen := by
        by_contra hh; exact hne (hnf k hh)
      rcases B.closed k j hkf (nbrs_symm I.X.fits hj hk) ho hjp with h1 | h1
      · exact hjf h1
      · exact hnn j h1
  have hlow : scl I.lowF (U i) ≤ tf u.g.nob i := J.low U hU i hiN
  have hgood : GoodT (u.g.value i).1 := J.good i
  have eT : tf u.g.nob i = toT (u.g.value i).1 := rfl
  rw [eT] at hup hlow
  have hUnn := (I.X.exSol hU).nonneg I.X.fits (fun i hi _ ho => I.X.cpos hi (by simpa using ho)) i hiN
  obtain ⟨b1, b2⟩ := I.relErr_ge
  have hc := I.cm0
  have eq2 : 2 * (n * qerr A inc) = n * (A + inc) / 2^46 := by
    unfold qerr uu; ring
  have hD : (0:ℝ) ≤ dims.length := Nat.cast_nonneg _
  have hextra : 0 ≤ 2 * dims.length * (inc / n + n * (A + inc) / 2^46) / cm := by
    rw [← eq2]
    exact div_nonneg (mul_nonneg (by linarith) (by linarith)) hc.le
  have hfac : 1 + 2 * dims.length * (I.θ + 2 * I.β + (inc / n + 2 * (n * qerr A inc))) / cm ≤ 1 + queueErr dims.length n cm A inc := by
    have e1 : 2 * (dims.length : ℝ) * (I.θ + 2 * I.β + (inc / n + 2 * (n * qerr A inc))) / cm =
        2 * dims.length * (I.θ + 2 * I.β) / cm + 2 * dims.length * (inc / n + n * (A + inc) / 2^46) / cm := by
      rw [eq2]; ring
    unfold queueErr
    rw [e1]; linarith
  cases hUi : U i with
  | top =>
    left
    refine ⟨rfl, ?_⟩
    rw [hUi, scl_top, top_le_iff] at hlow
    rcases hgood with hx | ⟨r, _, hx⟩
    · exact hx
    · rw [hx] at hlow; exact absurd hlow WithTop.coe_ne_top
  | coe e =>
    right
    rw [hUi] at hlow hup hUnn
    have he : (0:ℝ) ≤ e := by exact_mod_cast hUnn
    rcases hgood with hx | ⟨r, hr, hx⟩
    · rw [hx, scl_coe] at hup
      exact absurd (top_le_iff.1 hup) WithTop.coe_ne_top
    · rw [hx] at hlow hup
      rw [scl_coe] at hlow hup
      have h3 : I.lowF * e ≤ r := WithTop.coe_le_coe.1 hlow
      have h4 : r ≤ (1 + 2 * dims.length * (I.θ + 2 * I.β + (inc / n + 2 * (n * qerr A inc))) / cm) * e := WithTop.coe_le_coe.1 hup
      refine ⟨e, r, rfl, hx, le_trans ?_ h3, le_trans h4 (mul_le_mul_of_nonneg_right hfac he)⟩
      apply mul_le_mul_of_nonneg_right _ he
      unfold DInput.lowF queueErr
      linarith

/-- non-vacuity: rounding to nearest, a 3 x 3 grid of doubles with unit cells and speeds, starts in opposite corners, a queue of 1000 buckets and a window of
4: the hypotheses hold with an error below 2 per cent, the exact solution exists, and so does a finished run -/
example : ∃ (g : Grid (F64 Rounding.nearest)), ∃ (A : ℝ) (I : DInput [3,3] g 1 (fun _ => 1) [0, 8] 1 1 A), ∃ incF : F64 Rounding.nearest, incF.1 = .fin 4 ∧
    Within [3,3] g [0, 8] 8 ∧ (2 * 1 + 2 * ((4:ℝ) / (1000:ℕ))) * ((8:ℕ) + 2) ≤ A ∧ QueueFits 2 1000 1 1 A 4 ∧ queueErr 2 1000 1 A 4 < 2 / 100 ∧ Fresh g ∧
    StartsApart [3,3] g [0, 8] ∧ (∃ U, I.X.problem.IsSolution U) ∧ RoundsUp (R := Rounding.nearest) (fun _ => 0) ∧
    ∃ m u, Steps (UFMM.Step noGoal eikS) m (UFMM.init g (UQ.create 1000 incF (fun _ => 0)) [0, 8]) u ∧ u.q.nb = 0 := by
  set g : Grid (F64 Rounding.nearest) := Grid.create [3,3] Arith.one (0,0) with hg
  have X : XInput [3,3] (gridX g) 1 (fun _ => 1) [0, 8] :=
    ⟨⟨by decide, by decide, by decide⟩, by decide, rfl, by decide, one_pos, rfl, fun _ _ _ => rfl⟩
  have hfr : Fresh g := ⟨fun _ => rfl, fun _ => rfl, fun _ => rfl⟩
  have b1 : (2:ℝ)^(-200:ℤ) ≤ 1 := by
    have : (2:ℝ)^(-200:ℤ) ≤ (2:ℝ)^(0:ℤ) := zpow_le_zpow_right₀ (by norm_num) (by norm_num)
    simpa using this
  have b2 : (1:ℝ) ≤ (2:ℝ)^(200:ℤ) := by
    have : (2:ℝ)^(0:ℤ) ≤ (2:ℝ)^(200:ℤ) := zpow_le_zpow_right₀ (by norm_num) (by norm_num)
    simpa using this
  have b3 : (32:ℝ) ≤ (2:ℝ)^(300:ℤ) := by
    have : (2:ℝ)^(5:ℤ) ≤ (2:ℝ)^(300:ℤ) := zpow_le_zpow_right₀ (by norm_num) (by norm_num)
    refine le_trans ?_ this
    norm_num
  have I : DInput [3,3] g 1 (fun _ => 1) [0, 8] 1 1 32 := by
    refine ⟨X, b1, b2, fun _ _ _ => b2, one_pos, fun _ _ _ => by norm_num, fun _ _ _ => by norm_num, by norm_num, by norm_num, b3, ?_, ?_⟩
    · show 640 * ((2:ℕ):ℝ)^4 * uu * 32^2 ≤ 1^2
      unfold uu; norm_num
    · unfold XR.eps; norm_num
  have hap : StartsApart [3,3] g [0, 8] := by
    intro i hi j hj _ hadj
    obtain ⟨k, h0, h1, h2, h3⟩ := hadj
    fin_cases hi <;> fin_cases hj <;> revert h1 h2 h3 <;> (intro h1 h2 h3)
    all_goals
      have h4 : k = 0 ∨ k = 1 := by
        have : k < 2 := h1
        omega
      rcases h4 with rfl | rfl <;> revert h2 <;> decide
  have hin : Input [3,3] g [0, 8] := ⟨⟨by decide, by decide, by decide⟩, rfl, by decide⟩
  obtain ⟨U, hU, _⟩ := C17_unique_solution X.problem X.wellPosed
  have h4 : ((Arith.ofNat 4 : F64 Rounding.nearest)).1 = .fin 4 := by
    show Rounding.nearest.rd (((4 : Int) : ℝ) / ((1 : Nat) : ℝ)) = _
    have e : ((4 : Int) : ℝ) / ((1 : Nat) : ℝ) = ((4:ℕ):ℝ) := by norm_num
    rw [e, Rounding.nearest.exact _ (isDouble_nat (by norm_num))]; norm_num
  have hz := zeroFirst_f64 (n := 1000) h4 (by norm_num) (by norm_num) (fun _ => 0) [0, 8]
  obtain ⟨m, u, _, hs, _, he⟩ := (C50_UFMM_terminates_partial hin (fun _ => rfl) hap (by norm_num) (Arith.ofNat 4) (fun _ => 0) hz noGoal).2
  refine ⟨g, 32, I, Arith.ofNat 4, h4, ?_, by norm_num, ⟨by norm_num, by norm_num, by norm_num, ?_, by norm_num, ?_⟩, ?_, hfr, hap, ⟨U, hU⟩,
    fun _ _ _ _ _ => rfl, m, u, hs, he (by decide)⟩
  · have := DInput.within_cells X
    exact this
  · exact le_trans (by norm_num) b3
  · unfold relErr; norm_num
  · unfold queueErr relErr; norm_num

end final
end FMV
