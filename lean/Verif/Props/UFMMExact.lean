import Verif.Model.UQDefined
import Verif.Lemmas.Untidy
import Verif.Props.UFMM
/-!
# UFMM with an adequate window: C52 (untidy order) and C53 (accuracy)
-/
set_option linter.unusedSectionVars false
set_option linter.unusedVariables false
namespace FMV
open Arith Spec Shape XR FMM
variable {dims : List Nat} {g : Grid XR} {h : ℝ} {v : Nat → ℝ} {pts : List Nat}

/-- accuracy of the frozen cells at any moment, and a lower bound for the exact time of all others -/
theorem uanytime (X : XInput dims g h v pts) {U : Nat → WithTop ℝ} (hU : X.problem.IsSolution U) {T : Nat → WithTop ℝ}
    {st : Nat → FMState} {heap : List Nat} {Δ θ : ℝ} (hΔ : 0 ≤ Δ) (A : X.UInv Δ θ T st heap) :
    ∀ n i, i < dims.prod → XInput.rank dims.prod U i = n →
      (st i = .frozen → T i ≤ U i + (((2 * eps + Δ) * n : ℝ) : WithTop ℝ)) ∧
      (st i ≠ .frozen → (θ : WithTop ℝ) ≤ U i + (((2 * eps + Δ) * n : ℝ) : WithTop ℝ)) := by
  have hE := X.exSol hU
  have h1 := A.fzle
  have h2 := A.nfge
  have he := eps_pos
  intro n
  induction n using Nat.strong_induction_on with
  | _ n ih =>
    intro i hi hn
    obtain ⟨e1, e2, e3⟩ := hE i hi
    have hn0 : (0:ℝ) ≤ (2 * eps + Δ) * n := by positivity
    have hn0' : (0 : WithTop ℝ) ≤ (((2 * eps + Δ) * n : ℝ) : WithTop ℝ) := by exact_mod_cast hn0
    by_cases hs : i ∈ pts
    · rw [e1 hs, zero_add]
      refine ⟨fun _ => ?_, fun hf => ?_⟩
      · rw [(A.ini i hs).1]; exact hn0'
      · have := h2 i hi hf
        rw [(A.ini i hs).1] at this
        exact le_trans this hn0'
    cases ho : g.occ i with
    | true => rw [e2 hs ho]; simp
    | false =>
      rcases e3 hs (by simp [ho]) with ⟨r, f1, f2⟩ | ⟨f1, _⟩
      · obtain ⟨j0, hj0, hj0r⟩ := exists_upwind X hi ho f2
        have hj0N := FMM.nbr_lt X.fits hi hj0
        have hn1 : 1 ≤ n := by
          have := XInput.rank_lt (U := U) (i := i) hj0N (by rw [f1]; exact hj0r)
          omega
        let D : ℝ := (2 * eps + Δ) * ((n:ℝ) - 1)
        have hn1' : (1:ℝ) ≤ n := by exact_mod_cast hn1
        have hD : 0 ≤ D := mul_nonneg (by linarith) (by linarith)
        have hrank : ∀ j ∈ (Shape.mk' dims).nbrs i, U j < (r : WithTop ℝ) →
            (st j = .frozen → T j ≤ U j + (D : WithTop ℝ)) ∧ (st j ≠ .frozen → (θ : WithTop ℝ) ≤ U j + (D : WithTop ℝ)) := by
          intro j hj hjr
          have hjN := FMM.nbr_lt X.fits hi hj
          have hr := XInput.rank_lt (U := U) (i := i) hjN (by rw [f1]; exact hjr)
          obtain ⟨a1, a2⟩ := ih (XInput.rank dims.prod U j) (by omega) j hjN rfl
          have h5 : (XInput.rank dims.prod U j : ℝ) + 1 ≤ n := by
            have : XInput.rank dims.prod U j + 1 ≤ n := by omega
            exact_mod_cast this
          have h6 : (2 * eps + Δ) * (XInput.rank dims.prod U j : ℝ) ≤ D :=
            mul_le_mul_of_nonneg_left (by linarith) (by linarith)
          have h7 : U j + (((2 * eps + Δ) * (XInput.rank dims.prod U j : ℝ) : ℝ) : WithTop ℝ) ≤ U j + (D : WithTop ℝ) := by
            gcongr; exact_mod_cast h6
          exact ⟨fun hf => le_trans (a1 hf) h7, fun hf => le_trans (a2 hf) h7⟩
        have hfinal : (r + D + (2 * eps + Δ) : ℝ) = r + (2 * eps + Δ) * n := by simp only [D]; ring
        by_cases hall : ∀ j ∈ (Shape.mk' dims).nbrs i, U j < (r : WithTop ℝ) → st j = .frozen
        · refine ⟨fun hf => ?_, fun hf => ?_⟩
          · have hres := resid_shift X (W := XInput.Tf T st) hi f2 (D := D) (by
              intro j hj hjr
              unfold XInput.Tf; rw [if_pos (hall j hj hjr)]
              exact (hrank j hj hjr).1 (hall j hj hjr))
            have := A.pf i hf hs _ hres
            rw [f1]
            rw [hfinal] at this
            exact_mod_cast this
          · have hnar : st i = .narrow := by
              rcases A.closed j0 i (hall j0 hj0 hj0r) (nbrs_symm X.fits hi hj0) ho hs with h3 | h3
              · exact absurd h3 hf
              · exact h3
            obtain ⟨W, w1, w2, w3⟩ := A.snap i hnar
            have hres := resid_shift X (W := W) hi f2 (D := D) (by
              intro j hj hjr
              rw [w1 j (FMM.nbr_lt X.fits hi hj) (hall j hj hjr)]
              exact (hrank j hj hjr).1 (hall j hj hjr))
            obtain ⟨u, hu, huY⟩ := upd_upper (X.cpos hi ho) (WithTop.coe_lt_top (r + D)) hres
            rw [hu] at w3
            refine le_trans (h2 i hi hf) (le_trans w3 ?_)
            rw [f1]
            have : u + eps ≤ r + (2 * eps + Δ) * n := by linarith
            exact_mod_cast this
        · push Not at hall
          obtain ⟨j, hj, hjr, hjf⟩ := hall
          have hθ : (θ : WithTop ℝ) ≤ U i + (((2 * eps + Δ) * n : ℝ) : WithTop ℝ) := by
            refine le_trans ((hrank j hj hjr).2 hjf) ?_
            rw [f1]
            have h8 : (D : WithTop ℝ) ≤ (((2 * eps + Δ) * n : ℝ) : WithTop ℝ) := by
              have : D ≤ (2 * eps + Δ) * n := by linarith
              exact_mod_cast this
            exact add_le_add hjr.le h8
          refine ⟨fun hf => le_trans (h1 i hf) ?_, fun _ => hθ⟩
          have hθ' := (hrank j hj hjr).2 hjf
          cases hUj : U j with
          | top => rw [hUj] at hjr; exact absurd hjr not_top_lt
          | coe q =>
            rw [hUj] at hθ' hjr
            have q1 : θ ≤ q + D := by exact_mod_cast hθ'
            have q2 : q < r := by exact_mod_cast hjr
            rw [f1]
            have : θ + Δ ≤ r + (2 * eps + Δ) * n := by linarith
            exact_mod_cast this
      · rw [f1]; simp


namespace UFMM

/-- the queue of a UFMM run: the narrow-band cells are in the buckets their times belong to, the first bucket beginning at `θ` -/
structure QInv (n : Nat) (inc : ℝ) (u : St XR) (θ : ℝ) : Prop where
  size : u.q.size = n
  incMax : u.q.incMax = .fin inc
  delta : u.q.delta = .fin (inc / n)
  t0 : u.q.t0 = .fin θ
  placed : ∀ j, u.g.state j = .narrow → ∃ t : ℝ, u.g.value j = .fin t ∧
    θ + (UQ.ahead n u.q.i0 (u.g.cells j).bucket : ℝ) * (inc / n) ≤ t ∧
    t < θ + ((UQ.ahead n u.q.i0 (u.g.cells j).bucket : ℝ) + 1) * (inc / n)

theorem QInv.below {n : Nat} (hn : 0 < n) {inc : ℝ} (hinc : 0 < inc) {u : St XR} {θ : ℝ} (Q : QInv n inc u θ) {j : Nat}
    (hj : u.g.state j = .narrow) : ∃ t : ℝ, u.g.value j = .fin t ∧ θ ≤ t ∧ t < θ + inc := by
  obtain ⟨t, h1, h2, h3⟩ := Q.placed j hj
  have hnR : (0 : ℝ) < n := by exact_mod_cast hn
  have hδ : 0 < inc / n := div_pos hinc hnR
  have ha : (UQ.ahead n u.q.i0 (u.g.cells j).bucket : ℝ) + 1 ≤ n := by exact_mod_cast UQ.ahead_lt hn
  have h0 : (0 : ℝ) ≤ (UQ.ahead n u.q.i0 (u.g.cells j).bucket : ℝ) := Nat.cast_nonneg _
  refine ⟨t, h1, ?_, ?_⟩
  · nlinarith
  · have : ((UQ.ahead n u.q.i0 (u.g.cells j).bucket : ℝ) + 1) * (inc / n) ≤ n * (inc / n) := mul_le_mul_of_nonneg_right ha hδ.le
    have e : (n : ℝ) * (inc / n) = inc := by field_simp
    linarith

theorem fin_of_tv {g : Grid XR} (hg : GoodG g) {j : Nat} (h : tv g j ≠ ⊤) : ∃ t : ℝ, g.value j = .fin t ∧ tv g j = (t : WithTop ℝ) := by
  rcases hg j with h1 | ⟨r, _, h1⟩
  · exfalso; apply h; unfold tv; rw [h1]; rfl
  · exact ⟨r, h1, by unfold tv; rw [h1]; rfl⟩

/-- one neighbour keeps the cells in their buckets -/
theorem QInv.relax (X : XInput dims g h v pts) (hna : X.NonAdj) {n : Nat} (hn : 0 < n) (hn' : n ≤ 4294967296) {inc : ℝ} (hinc : 0 < inc)
    (hwin : ∀ j, j < dims.prod → g.occ j = false → h / v j + inc / n + eps < inc) {u : St XR} {θ : ℝ} (Q : QInv n inc u θ)
    (hi0 : u.q.i0 < u.q.size) (hnb : u.q.nb ≠ 0) {x j : Nat} {rest heap heap' : List Nat} {b b' : Bool}
    (m : X.FUMid (inc / n) θ x (j :: rest) ⟨u.g.nob, heap, b⟩) (hj : j ∈ (Shape.mk' dims).nbrs x)
    (m' : X.FUMid (inc / n) θ x rest ⟨(UFMM.relax eikS u j).g.nob, heap', b'⟩) : QInv n inc (UFMM.relax eikS u j) θ := by
  have hi0' : u.q.i0 < n := by rw [← Q.size]; exact hi0
  have hxN := m.mid.fzN x m.mid.fx
  have hjN : j < dims.prod := FMM.nbr_lt X.fits hxN hj
  have hocc : u.g.occ j = g.occ j := SameMap.occ_eq m.map j
  -- a narrow cell of the new state has a finite key, not below θ
  have key : (UFMM.relax eikS u j).g.state j = .narrow → ∃ t : ℝ, (UFMM.relax eikS u j).g.value j = .fin t ∧ θ ≤ t := by
    intro hst
    have h1 := (m'.mid.nar j hst).1
    obtain ⟨t, h2, h3⟩ := fin_of_tv m'.good (m'.mid.finH j h1)
    refine ⟨t, h2, ?_⟩
    have := m'.mid.nfge j hjN (by show (UFMM.relax eikS u j).g.state j ≠ _; rw [hst]; simp)
    dsimp only at this
    rw [h3] at this
    exact_mod_cast this
  rcases relax_cases eikS u j with ⟨hsk, e⟩ | ⟨ho, hnr, hbt, e⟩ | ⟨ho, hnr, hbt, e⟩ | ⟨ho, hop, e⟩
  · rw [e]; exact Q
  · rw [e] at key ⊢
    obtain ⟨t, ht, hθt⟩ := key (by simpa using hnr)
    simp only [Grid.value_setBucket, Grid.value_setValue, if_true] at ht
    obtain ⟨told, ho1, ho2, ho3⟩ := Q.below hn hinc hnr
    have hlt : t < told := by
      have hb2 := hbt
      rw [ht, ho1] at hb2
      have : Arith.better (ofT (t : WithTop ℝ)) (ofT (told : WithTop ℝ)) = true := hb2
      rw [better_ofT] at this
      have h3 : t + eps < told := by exact_mod_cast this
      linarith [eps_pos]
    have hW := UQ.bucketOf_window hn hn' hinc Q.size Q.incMax Q.t0 hi0' hθt (by linarith)
    have hp := UQ.increase_params u.q j (u.g.cells j).bucket (eikS u.g j).1
    refine ⟨by rw [UQ.increase_size]; exact Q.size, hp.1.trans Q.incMax, hp.2.trans Q.delta, by rw [UQ.increase_t0]; exact Q.t0, ?_⟩
    intro k hk
    dsimp only
    rw [cells_setBucket, UQ.increase_i0]
    by_cases hkj : k = j
    · subst hkj
      rw [if_pos rfl]
      dsimp only
      rw [ht]
      exact ⟨t, by simp [Grid.value_setBucket, Grid.value_setValue], hW⟩
    · rw [if_neg hkj, bucket_setValue]
      simp only [Grid.value_setBucket, Grid.value_setValue, if_neg hkj, Grid.value_setScratch]
      exact Q.placed k (by simpa using hk)
  · rw [e]
    exact ⟨Q.size, Q.incMax, Q.delta, Q.t0, Q.placed⟩
  · rw [e] at key ⊢
    obtain ⟨t, ht, hθt⟩ := key (by simp [Grid.state_setState])
    simp only [Grid.value_setBucket, Grid.value_setValue, if_true] at ht
    have ho' : g.occ j = false := by rw [← hocc]; exact ho
    have hc := X.cpos hjN ho'
    have hjp := m.mid.not_init X hna hj ho' (by show u.g.state j ≠ _; rw [hop]; simp)
    -- upper bound for the new key
    have hub : t < θ + inc := by
      have he := X.eik_eq m.map m.good hjN ho'
      rw [eikS_bucketFree] at he
      rw [ht] at he
      have hTj : tv u.g.nob j = ⊤ := m.mid.opn j hop hjp
      have hTx := m.mid.fzle x m.mid.fx
      cases hx : tv u.g.nob x with
      | top => exact absurd hx (m.mid.finF x m.mid.fx)
      | coe tx =>
        dsimp only at hTx
        rw [hx] at hTx
        have hTx' : tx ≤ θ + inc / n := by exact_mod_cast hTx
        have hres : (h / v j)^2 ≤ residL (tx + h / v j) (mins (Shape.mk' dims) (tv u.g.nob) j) := by
          obtain ⟨mm, hmm, hle⟩ := XInput.mins_le (T := tv u.g.nob) (nbrs_symm X.fits hxN hj)
          refine le_trans ?_ (posSq_le_residL hmm)
          rw [hx] at hle
          refine le_trans ?_ (posSq_anti _ hle)
          rw [posSq_coe]
          have : max (tx + h / v j - tx) 0 = h / v j := by
            rw [add_sub_cancel_left]; exact max_eq_left hc.le
          rw [this]
        obtain ⟨w, hw, hwY⟩ := upd_upper hc (Ti := tv u.g.nob j) (by rw [hTj]; exact WithTop.coe_lt_top _) hres
        dsimp only at he
        rw [hw] at he
        have : t = w := by
          have : (XR.fin t) = XR.fin w := he
          injection this
        have := hwin j hjN ho'
        linarith
    have hW := UQ.bucketOf_window hn hn' hinc Q.size Q.incMax Q.t0 hi0' hθt hub
    have hpu : u.q.push j (eikS u.g j).1 = (({ u.q with nb := u.q.nb + 1 } : UQ XR).cons (u.q.bucketOf (eikS u.g j).1) j, u.q.bucketOf (eikS u.g j).1) := by
      unfold UQ.push; rw [if_neg hnb]
    rw [hpu]
    refine ⟨Q.size, Q.incMax, Q.delta, Q.t0, ?_⟩
    intro k hk
    dsimp only
    rw [cells_setBucket]
    by_cases hkj : k = j
    · subst hkj
      rw [if_pos rfl]
      dsimp only
      rw [ht]
      exact ⟨t, by simp [Grid.value_setBucket, Grid.value_setValue], hW⟩
    · rw [if_neg hkj, bucket_setValue, bucket_setState]
      simp only [Grid.value_setBucket, Grid.value_setValue, if_neg hkj, Grid.value_setScratch, Grid.value_setState]
      exact Q.placed k (by simpa [Grid.state_setState, hkj] using hk)

/-- a key inside the window is converted without undefined behaviour -/
theorem convDefined_window {n : Nat} (hn : 0 < n) (hn' : n ≤ 4294967296) {inc : ℝ} (hinc : 0 < inc) {q : UQ XR} (hs : q.size = n)
    (hI : q.incMax = .fin inc) {τ t : ℝ} (h0 : q.t0 = .fin τ) (h1 : τ ≤ t) (h2 : t < τ + inc) : q.convDefined (.fin t) := by
  have hnR : (0 : ℝ) < n := by exact_mod_cast hn
  have hx : Arith.div (Arith.mul (Arith.sub (XR.fin t) q.t0) (Arith.ofNat q.size)) q.incMax = XR.fin ((t - τ) * n / inc) := by
    rw [h0, hI, hs]
    show XR.div (XR.mul (XR.add (XR.fin t) (XR.neg (XR.fin τ))) (XR.fin (((n : Int) : ℝ) / ((1 : Nat) : ℝ)))) (XR.fin inc) = _
    simp only [XR.neg, XR.add, XR.mul, XR.div, if_neg hinc.ne']
    congr 2
    push_cast; ring
  have hy0 : 0 ≤ (t - τ) * n / inc := div_nonneg (mul_nonneg (by linarith) hnR.le) hinc.le
  have hyn : (t - τ) * n / inc < n := by
    rw [div_lt_iff₀ hinc]
    have : t - τ < inc := by linarith
    nlinarith
  have hf0 : 0 ≤ ⌊(t - τ) * n / inc⌋ := Int.floor_nonneg.2 hy0
  have hfn : ⌊(t - τ) * n / inc⌋ < n := Int.floor_lt.2 (by exact_mod_cast hyn)
  unfold UQ.convDefined
  rw [hx]
  show (if 0 ≤ ⌊(t - τ) * n / inc⌋ ∧ ⌊(t - τ) * n / inc⌋ < 4294967296 then some ⌊(t - τ) * n / inc⌋.toNat else none).isSome = true
  rw [if_pos ⟨hf0, by omega⟩]; rfl

/-- if the cells are in their buckets before and after the visit of a neighbour, the visit performs no undefined conversion -/
theorem QInv.defined {n : Nat} (hn : 0 < n) (hn' : n ≤ 4294967296) {inc : ℝ} (hinc : 0 < inc) {u : St XR} {θ : ℝ} {j : Nat} (Q : QInv n inc u θ)
    (Q' : QInv n inc (UFMM.relax eikS u j) θ) : relaxDefined eikS u j := by
  unfold relaxDefined
  rcases relax_cases eikS u j with ⟨hsk, e⟩ | ⟨ho, hnr, hbt, e⟩ | ⟨ho, hnr, hbt, e⟩ | ⟨ho, hop, e⟩
  · rw [if_pos hsk]; trivial
  · rw [if_neg (by rw [hnr, ho]; simp)]
    dsimp only
    rw [if_pos hnr, if_pos hbt]
    unfold increaseDefined
    rw [e] at Q'
    obtain ⟨t, h1, h2, h3⟩ := Q'.below hn hinc (j := j) (by simpa using hnr)
    simp only [Grid.value_setBucket, Grid.value_setValue, if_true] at h1
    dsimp only
    rw [Grid.value_setValue, if_pos rfl, h1]
    exact convDefined_window hn hn' hinc Q.size Q.incMax Q.t0 h2 h3
  · rw [if_neg (by rw [hnr, ho]; simp)]
    dsimp only
    rw [if_pos hnr, if_neg (by rw [hbt]; simp)]; trivial
  · rw [if_neg (by rw [hop, ho]; simp)]
    dsimp only
    rw [if_neg (by rw [hop]; simp)]
    rw [e] at Q'
    obtain ⟨t, h1, h2, h3⟩ := Q'.below hn hinc (j := j) (by simp [Grid.state_setState])
    simp only [Grid.value_setBucket, Grid.value_setValue, if_true] at h1
    refine .inr ?_
    dsimp only
    rw [Grid.value_setValue, if_pos rfl, h1]
    exact convDefined_window hn hn' hinc Q.size Q.incMax Q.t0 h2 h3

/-- all neighbours -/
theorem QInv.fold (X : XInput dims g h v pts) (hna : X.NonAdj) {n : Nat} (hn : 0 < n) (hn' : n ≤ 4294967296) {inc : ℝ} (hinc : 0 < inc)
    (hwin : ∀ j, j < dims.prod → g.occ j = false → h / v j + inc / n + eps < inc) {goal : Nat} {θ : ℝ} {x : Nat} {rem : List Nat} {g0 : Grid XR} :
    ∀ (l : List Nat) (u : St XR), l.Nodup → (∀ j ∈ l, j ∈ (Shape.mk' dims).nbrs x) → Inv g0 pts u rem → u.q.Shows x → u.g.state x = .frozen →
    (∀ j ∈ l, rem ≠ [] → g0.occ j = false → j ∉ pts) → ∀ heap : List Nat, u.q.content = x ::ₘ (heap : Multiset Nat) →
    QInv n inc u θ → X.FUMid (inc / n) θ x l ⟨u.g.nob, heap, u.stop⟩ →
    allDefined (relaxDefined eikS) (UFMM.relax eikS) u l ∧ QInv n inc (l.foldl (UFMM.relax eikS) u) θ ∧ (l.foldl (UFMM.relax eikS) u).q.Shows x ∧
    ∃ heap' b, l.foldl (FMM.relax (fcfg goal) eikS) ⟨u.g.nob, heap, u.stop⟩ = ⟨(l.foldl (UFMM.relax eikS) u).g.nob, heap', b⟩ ∧
      X.FUMid (inc / n) θ x [] ⟨(l.foldl (UFMM.relax eikS) u).g.nob, heap', b⟩ := by
  intro l
  induction l with
  | nil => intro u _ _ I hS _ _ heap hc Q m; exact ⟨trivial, Q, hS, heap, u.stop, rfl, m⟩
  | cons j l ih =>
    intro u hnd hl I hS hfx hjp heap hc Q m
    rw [List.nodup_cons] at hnd
    obtain ⟨I', hS', hf', hst, heap', e, hc'⟩ := I.relax (goal := goal) eikS_bucketFree (dims := []) hS hfx (hjp j (by simp)) hc
    have m' := XInput.FUMid.relax X hna (cfg := fcfg goal) rfl m (hl j (by simp)) hnd.1
    rw [e] at m'
    have hnb : u.q.nb ≠ 0 := by
      intro h0
      have := I.wf.nb_zero.1 h0
      rw [hc] at this; simp at this
    have Q' := Q.relax X hna hn hn' hinc hwin I.wf.i0 hnb m (hl j (by simp)) m'
    rw [List.foldl_cons, List.foldl_cons, e]
    rw [← hst] at m' ⊢
    obtain ⟨r1, r2⟩ := ih _ hnd.2 (fun k hk => hl k (by simp [hk])) I' hS' hf' (fun k hk => hjp k (by simp [hk])) heap' hc' Q' m'
    exact ⟨⟨Q.defined hn hn' hinc Q', r1⟩, r2⟩

theorem advance_t0_mono {δ : ℝ} (hδ : 0 ≤ δ) : ∀ (m : Nat) (q : UQ XR) (τ : ℝ), q.delta = .fin δ → q.t0 = .fin τ →
    ∃ τ', (q.advance m).t0 = .fin τ' ∧ τ ≤ τ' := by
  intro m
  induction m with
  | zero => intro q τ _ h0; exact ⟨τ, h0, le_refl _⟩
  | succ m ih =>
    intro q τ hd h0
    unfold UQ.advance
    split
    · obtain ⟨τ', h1, h2⟩ := ih q.shift (τ + δ) hd (by show Arith.add q.t0 q.delta = _; rw [h0, hd]; rfl)
      exact ⟨τ', h1, by linarith⟩
    · exact ⟨τ, h0, le_refl _⟩

/-- the whole invariant -/
structure XInv (X : XInput dims g h v pts) (n : Nat) (inc : ℝ) (g0 : Grid XR) (u : St XR) (rem heap : List Nat) (θ : ℝ) : Prop where
  inv : Inv g0 pts u rem
  cont : u.q.content = (heap : Multiset Nat)
  map : SameMap g u.g.nob
  good : GoodG u.g.nob
  hz : ∀ i, (u.g.nob.cells i).hValue = fin 0
  uinv : X.UInv (inc / n) θ (tv u.g.nob) u.g.nob.state heap
  q : QInv n inc u θ
  nn : 0 ≤ θ

theorem XInv.step (X : XInput dims g h v pts) (hna : X.NonAdj) {n : Nat} (hn : 0 < n) (hn' : n ≤ 4294967296) {inc : ℝ} (hinc : 0 < inc)
    (hwin : ∀ j, j < dims.prod → g.occ j = false → h / v j + inc / n + eps < inc) {goal : Nat} {g0 : Grid XR}
    (hap : ∀ a ∈ pts, ∀ b ∈ g0.shape.nbrs a, g0.occ b = false → b ∉ pts) (hmap0 : SameMap g0 g)
    {u u' : St XR} {rem heap : List Nat} {θ₀ : ℝ} (A : XInv X n inc g0 u rem heap θ₀) (hs : Step goal eikS u u') :
    DStep goal eikS u u' ∧ ∃ rem' heap' θ, XInv X n inc g0 u' rem' heap' θ := by
  have hs0 := hs
  obtain ⟨x', hx', hxh, rem', I', heap', e', hc'⟩ := A.inv.step eikS_bucketFree hap hs A.cont
  obtain ⟨hnd, x, hx, rfl⟩ := hs
  have hxx : x' = x := by rw [hx'] at hx; exact Option.some.inj hx
  subst hxx
  have hnR : (0 : ℝ) < n := by exact_mod_cast hn
  have hΔ : 0 ≤ inc / n := (div_pos hinc hnR).le
  have I := A.inv
  have hS : u.q.top.1.Shows x' := hx
  have hk := UQ.settle_keeps u.q
  have hW := UQ.settle_wf I.wf
  have hrem : rem ≠ [] → u.q.settle = u.q := by
    intro hne
    apply UQ.advance_stay
    intro h0
    have := I.suf; rw [h0] at this
    exact hne (List.suffix_nil.1 this)
  have hsuf : rem <:+ u.q.settle.tab u.q.settle.i0 := by
    by_cases hne : rem = []
    · rw [hne]; exact List.nil_suffix
    · rw [hrem hne]; exact I.suf
  have hxp : rem ≠ [] → x' ∈ pts := by
    intro hne
    obtain ⟨B, hB⟩ := hsuf
    have hS' : (u.q.settle.tab u.q.settle.i0).getLast? = some x' := hS
    rw [← hB, List.getLast?_append_of_ne_nil _ hne] at hS'
    exact (I.remp x' (List.mem_of_getLast? hS')).1
  have hpr : rem = [] → ∀ k ∈ pts, u.g.state k = .frozen := by
    intro h0 k hk
    rcases (I.start k hk).2 with h1 | h1
    · exact h1
    · rw [h0] at h1; simp at h1
  -- the first bucket after `top`
  classical
  let K : Nat → ℝ := fun j => if hj : u.g.state j = .narrow then (A.q.placed j hj).choose else 0
  have hK : ∀ j, u.g.state j = .narrow → u.g.value j = .fin (K j) ∧
      θ₀ + (UQ.ahead n u.q.i0 (u.g.cells j).bucket : ℝ) * (inc / n) ≤ K j ∧
      K j < θ₀ + ((UQ.ahead n u.q.i0 (u.g.cells j).bucket : ℝ) + 1) * (inc / n) := by
    intro j hj
    have e : K j = (A.q.placed j hj).choose := dif_pos hj
    rw [e]; exact (A.q.placed j hj).choose_spec
  let M : Finset Nat := (Finset.range dims.prod).filter (fun j => u.g.state j = .narrow)
  have hM : ∀ j, j ∈ M ↔ u.g.state j = .narrow := by
    intro j
    rw [Finset.mem_filter, Finset.mem_range]
    exact ⟨fun h => h.2, fun h => ⟨A.uinv.heapN j (A.uinv.nar j h).1, h⟩⟩
  have hmem : ∀ e ∈ M, e ∈ u.q.tab (u.g.cells e).bucket := by
    intro e he
    obtain ⟨h1, h2⟩ := I.nar e ((hM e).1 he)
    apply List.count_pos_iff.1
    rw [h2 _ h1, if_pos rfl]; exact Nat.one_pos
  have hblt : ∀ e ∈ M, (u.g.cells e).bucket < n := fun e he => by rw [← A.q.size]; exact (I.nar e ((hM e).1 he)).1
  obtain ⟨θ, hθ0, hP⟩ := UQ.Placed.advance (n := n) (δ := inc / n) (M := M) (bk := fun e => (u.g.cells e).bucket) (K := K) hn u.q.size u.q θ₀
    A.q.size (by rw [← A.q.size]; exact I.wf.i0) A.q.delta A.q.t0 hblt hmem (fun e he => (hK e ((hM e).1 he)).2)
  have hθ : θ₀ ≤ θ := by
    obtain ⟨τ, h1, h2⟩ := advance_t0_mono hΔ u.q.size u.q θ₀ A.q.delta A.q.t0
    rw [hθ0] at h1
    have : θ = τ := by injection h1
    rw [this]; exact h2
  have hθr : rem ≠ [] → θ = θ₀ := by
    intro hne
    have h1 : u.q.settle.t0 = .fin θ := hθ0
    rw [hrem hne, A.q.t0] at h1
    injection h1 with h1; exact h1.symm
  change UQ.Placed n (inc / n) M (fun e => (u.g.cells e).bucket) K u.q.settle.i0 θ at hP
  have htvK : ∀ j, u.g.state j = .narrow → tv u.g.nob j = (K j : WithTop ℝ) := by
    intro j hj
    show toT (u.g.value j) = _
    rw [(hK j hj).1]; rfl
  have nfge : ∀ j, j < dims.prod → u.g.nob.state j ≠ .frozen → (θ : WithTop ℝ) ≤ tv u.g.nob j := by
    intro j hjN hjf
    cases hst : u.g.state j with
    | frozen => exact absurd hst hjf
    | narrow =>
      rw [htvK j hst]
      have h1 := (hP j ((hM j).2 hst)).1
      have h2 : (0 : ℝ) ≤ (UQ.ahead n u.q.settle.i0 (u.g.cells j).bucket : ℝ) * (inc / n) := mul_nonneg (Nat.cast_nonneg _) hΔ
      have : θ ≤ K j := by linarith
      exact_mod_cast this
    | opn =>
      by_cases hjp : j ∈ pts
      · have hne : rem ≠ [] := fun h0 => hjf (hpr h0 j hjp)
        rw [hθr hne]
        exact A.uinv.nfge j hjN hjf
      · rw [A.uinv.opn j hst hjp]; exact le_top
  have hTx : tv u.g.nob x' ≤ ((θ + inc / n : ℝ) : WithTop ℝ) := by
    cases hst : u.g.state x' with
    | frozen =>
      refine le_trans (A.uinv.fzle x' hst) ?_
      have : θ₀ + inc / n ≤ θ + inc / n := by linarith
      exact_mod_cast this
    | narrow =>
      rw [htvK x' hst]
      have hm : x' ∈ u.q.tab u.q.settle.i0 := by
        have hS' : (u.q.settle.tab u.q.settle.i0).getLast? = some x' := hS
        rw [hk.1] at hS'
        exact List.mem_of_getLast? hS'
      have hilt : u.q.settle.i0 < u.q.size := by rw [← hk.2.1]; exact hW.i0
      have hb : u.q.settle.i0 = (u.g.cells x').bucket := by
        have := (I.nar x' hst).2 _ hilt
        by_contra hne
        rw [if_neg hne] at this
        exact (List.count_pos_iff.2 hm).ne' this
      have h2 := (hP x' ((hM x').2 hst)).2
      dsimp only at h2
      rw [← hb, UQ.ahead_self (by rw [← A.q.size]; exact hilt)] at h2
      simp only [Nat.cast_zero, zero_add, one_mul] at h2
      exact_mod_cast h2.le
    | opn =>
      have hxc : x' ∈ u.q.content := by rw [A.cont]; exact hxh
      have hxr := I.opn x' hxc hst
      have hxp' := (I.remp x' hxr).1
      have h0 : tv u.g.nob x' = 0 := (A.uinv.ini x' hxp').1
      rw [h0]
      have := A.nn
      have : (0:ℝ) ≤ θ + inc / n := by linarith
      exact_mod_cast this
  have hord : x' ∈ pts ∨ ∀ k ∈ pts, u.g.nob.state k = .frozen := by
    by_cases hne : rem = []
    · exact Or.inr (hpr hne)
    · exact Or.inl (hxp hne)
  have mid := A.uinv.pop X hΔ hxh hθ nfge hTx hord
  -- the state in which the neighbours are visited
  have I1 : Inv g0 pts { u with q := u.q.top.1, g := u.g.setState x' .frozen } rem := by
    refine ⟨hW, I.map.trans (sameMap_setState _ _ _), hsuf, ?_, ?_, ?_, ?_⟩
    · intro j hj
      refine ⟨(I.remp j hj).1, ?_⟩
      simp only [Grid.state_setState]; split
      · simp
      · exact (I.remp j hj).2
    · intro j hj hst
      simp only [Grid.state_setState] at hst
      split at hst
      · cases hst
      · exact I.opn j (by rw [← UQ.settle_content]; exact hj) hst
    · intro j hj
      simp only [Grid.state_setState] at hj
      split at hj
      · cases hj
      · have := I.nar j hj
        refine ⟨?_, ?_⟩
        · rw [bucket_setState]; show _ < u.q.settle.size; rw [hk.2.1]; exact this.1
        · intro b hb; rw [bucket_setState]; show List.count j (u.q.settle.tab b) = _; rw [hk.1]; exact this.2 b (by rw [← hk.2.1]; exact hb)
    · intro j hj
      refine ⟨by rw [Grid.value_setState]; exact (I.start j hj).1, ?_⟩
      simp only [Grid.state_setState]; split
      · left; rfl
      · exact (I.start j hj).2
  have hct : u.q.top.1.content = (heap : Multiset Nat) := (UQ.settle_content u.q).trans A.cont
  have hce : u.q.top.1.content = x' ::ₘ ((heap.erase x' : List Nat) : Multiset Nat) := by
    rw [hct, ← Multiset.coe_erase, Multiset.cons_erase (by exact hxh)]
  have hap' : ∀ j ∈ (Shape.mk' dims).nbrs x', rem ≠ [] → g0.occ j = false → j ∉ pts := by
    intro j hj hne ho
    exact hap x' (hxp hne) j (by rw [← hmap0.shape, X.shape]; exact hj) ho
  have Q1 : QInv n inc { u with q := u.q.top.1, g := u.g.setState x' .frozen } θ := by
    refine ⟨hk.2.1.trans A.q.size, hk.2.2.2.2.1.trans A.q.incMax, hk.2.2.2.1.trans A.q.delta, hθ0, ?_⟩
    intro j hj
    simp only [Grid.state_setState] at hj
    split at hj
    · cases hj
    · refine ⟨K j, by rw [Grid.value_setState]; exact (hK j hj).1, ?_⟩
      rw [bucket_setState]
      exact hP j ((hM j).2 hj)
  have m1 : X.FUMid (inc / n) θ x' ((Shape.mk' dims).nbrs x') ⟨(u.g.setState x' .frozen).nob, heap.erase x', u.stop⟩ := by
    rw [Grid.nob_setState]
    refine ⟨A.map.trans (sameMap_setState _ _ _), ?_, XInput.hz_setState A.hz _ _, ?_⟩
    · intro k; simp only [Grid.value_setState]; exact A.good k
    · have e1 : tv (u.g.nob.setState x' .frozen) = tv u.g.nob := by funext k; unfold tv; simp
      have e2 : (u.g.nob.setState x' .frozen).state = fun k => if k = x' then .frozen else u.g.nob.state k := by
        funext k; simp [Grid.state_setState]
      show X.UMid _ _ _ _ (tv (u.g.nob.setState x' .frozen)) (u.g.nob.setState x' .frozen).state _
      rw [e1, e2]
      exact mid
  obtain ⟨hdef, Q2, hS2, hp2, b2, e2, m2⟩ := QInv.fold X hna hn hn' hinc hwin (goal := goal) (g0 := g0) ((Shape.mk' dims).nbrs x')
    { u with q := u.q.top.1, g := u.g.setState x' .frozen } (nbrs_nodup X.fits (A.uinv.heapN x' hxh)) (fun _ h => h) I1 hS
    (by simp [Grid.state_setState]) hap' (heap.erase x') hce Q1 m1
  have hsh : u.g.shape = Shape.mk' dims := A.map.shape.trans X.shape
  -- the same FMM step
  have hexp : FMM.expand (fcfg goal) eikS ⟨u.g.nob, heap, u.stop⟩ x' = _ := e'
  rw [FMM.expand_eq] at hexp
  have h0 : FMM.popped (⟨u.g.nob, heap, u.stop⟩ : FMM.St XR) x' = ⟨(u.g.setState x' .frozen).nob, heap.erase x', u.stop⟩ := by
    unfold FMM.popped; rw [Grid.nob_setState]
  rw [h0] at hexp
  dsimp only [Grid.nob_shape] at hexp
  rw [hsh] at hexp
  dsimp only at e2
  rw [e2] at hexp
  have hheap : hp2 = heap' := by
    have := congrArg FMM.St.heap hexp
    exact this
  have hgr : (List.foldl (UFMM.relax eikS) { u with q := u.q.top.1, g := u.g.setState x' .frozen } ((Shape.mk' dims).nbrs x')).g.nob =
      (expand goal eikS { u with q := u.q.top.1 } x').g.nob := by
    have := congrArg FMM.St.g hexp
    exact this
  rw [hheap, hgr] at m2
  refine ⟨⟨hs0, fun y hy => ?_⟩, rem', heap', θ, I', hc', m2.map, m2.good, m2.hz, m2.mid.done X, ?_, le_trans A.nn hθ⟩
  · obtain rfl : x' = y := by rw [hx'] at hy; exact Option.some.inj hy
    rw [hsh]; exact hdef
  -- the queue after `pop`
  have hw : (expand goal eikS { u with q := u.q.top.1 } x') =
      { (List.foldl (UFMM.relax eikS) { u with q := u.q.top.1, g := u.g.setState x' .frozen } ((Shape.mk' dims).nbrs x')) with
        q := (List.foldl (UFMM.relax eikS) { u with q := u.q.top.1, g := u.g.setState x' .frozen } ((Shape.mk' dims).nbrs x')).q.pop,
        stop := if x' = goal then true else (List.foldl (UFMM.relax eikS) { u with q := u.q.top.1, g := u.g.setState x' .frozen } ((Shape.mk' dims).nbrs x')).stop } := by
    unfold expand; dsimp only; rw [hsh]
  rw [hw]
  generalize List.foldl (UFMM.relax eikS) { u with q := u.q.top.1, g := u.g.setState x' .frozen } ((Shape.mk' dims).nbrs x') = w at Q2 hS2
  have hpop : w.q.pop.size = w.q.size ∧ w.q.pop.incMax = w.q.incMax ∧ w.q.pop.delta = w.q.delta ∧ w.q.pop.t0 = w.q.t0 ∧ w.q.pop.i0 = w.q.i0 := by
    unfold UQ.pop
    split
    · exact ⟨rfl, rfl, rfl, rfl, rfl⟩
    · rw [hS2.settle]; exact ⟨rfl, rfl, rfl, rfl, rfl⟩
  obtain ⟨p1, p2, p3, p4, p5⟩ := hpop
  refine ⟨p1.trans Q2.size, p2.trans Q2.incMax, p3.trans Q2.delta, p4.trans Q2.t0, ?_⟩
  intro j hj
  show ∃ t : ℝ, w.g.value j = _ ∧ θ + (UQ.ahead n w.q.pop.i0 _ : ℝ) * _ ≤ t ∧ _
  rw [p5]
  exact Q2.placed j hj

theorem init_delta (g0 : Grid XR) (q : UQ XR) (pts : List Nat) : (init g0 q pts).q.delta = q.delta := by
  unfold init
  refine foldl_inv (I := fun s : St XR => s.q.delta = q.delta) _ _ _ rfl ?_
  intro s i _ hs
  exact (UQ.push_params _ _ _).2.trans hs

theorem create_delta {n : Nat} (hn : 0 < n) (inc : ℝ) (ub : XR → Nat) : (UQ.create n (XR.fin inc) ub).delta = .fin (inc / n) := by
  have hnR : (0 : ℝ) < n := by exact_mod_cast hn
  show XR.div (XR.fin inc) (XR.fin (((n : Int) : ℝ) / ((1 : Nat) : ℝ))) = _
  have : ((n : Int) : ℝ) / ((1 : Nat) : ℝ) = n := by push_cast; ring
  rw [this]
  show (if (n : ℝ) = 0 then _ else _) = _
  rw [if_neg hnR.ne']

theorem XInv.start (X : XInput dims g h v pts) (hfr : Fresh g) {n : Nat} (hn : 0 < n) {inc : ℝ} (hinc : 0 < inc) (ub : XR → Nat) :
    XInv (nobX X) n inc g (init g (UQ.create n (XR.fin inc) ub) pts) pts.reverse pts.reverse 0 := by
  have hz := zeroFirst_exact (size := n) hinc ub pts
  obtain ⟨I, hc⟩ := inv_init (g0 := g) hfr.state hn hz
  obtain ⟨_, _, _, g4, _⟩ := init_g g (UQ.create n (XR.fin inc) ub) pts
  have F := XInput.FInv.start (nobX X) (g := g.nob) ⟨hfr.value, hfr.state, hfr.hValue⟩ (cfg := fcfg noGoal) rfl
  have eg : (init g (UQ.create n (XR.fin inc) ub) pts).g.nob = (FMM.init (fcfg noGoal) g.nob [] pts).g := g4 noGoal
  have hop : ∀ k, (FMM.init (fcfg noGoal) g.nob [] pts).g.state k = .opn := by
    intro k; rw [FMM.init_state]; exact hfr.state k
  have eh : (FMM.init (fcfg noGoal) g.nob [] pts).heap = pts.reverse := by rw [FMM.init_heap]; simp
  obtain ⟨_, _, h3, h4, h5, h6, _⟩ := init_q g hn (XR.fin inc) ub pts hz
  refine ⟨I, hc, ?_, ?_, ?_, ?_, ⟨h3, h6, by rw [init_delta]; exact create_delta hn inc ub, h5, ?_⟩, le_refl _⟩
  · rw [eg]; exact F.map
  · rw [eg]; exact F.good
  · rw [eg]; exact F.hz
  · rw [eg]
    have A := F.ain
    rw [eh] at A
    exact
    { nn := A.nn, heapN := A.heapN, fzN := A.fzN, finF := A.finF, finH := A.finH, heapK := A.heapK, nar := A.nar, opn := A.opn, ini := A.ini,
      pos := A.pos
      pf := by intro j hj; rw [hop] at hj; cases hj
      fzle := by intro j hj; rw [hop] at hj; cases hj
      nfge := fun j _ _ => A.nn j
      closed := A.closed
      snap := A.snap }
  · intro j hj
    have : (init g (UQ.create n (XR.fin inc) ub) pts).g.nob.state j = .narrow := hj
    rw [eg, hop] at this; cases this

/-- the window of the queue is wide enough for the map: the time to cross any free cell, plus one bucket and the comparison margin, fits in it -/
def WindowFits (dims : List Nat) (g : Grid XR) (h : ℝ) (v : Nat → ℝ) (n : Nat) (inc : ℝ) : Prop :=
  ∀ j, j < dims.prod → g.occ j = false → h / v j + inc / n + eps < inc

theorem XInv.reach (X : XInput dims g h v pts) (hfr : Fresh g) (ha : StartsApart dims g pts) {n : Nat} (hn : 0 < n) (hn' : n ≤ 4294967296)
    {inc : ℝ} (hinc : 0 < inc) (hwin : WindowFits dims g h v n inc) (ub : XR → Nat) (goal : Nat) {m : Nat} {u : St XR}
    (hs : Steps (Step goal eikS) m (init g (UQ.create n (XR.fin inc) ub) pts) u) : ∃ rem heap θ, XInv (nobX X) n inc g u rem heap θ := by
  refine Steps.inv (I := fun u => ∃ rem heap θ, XInv (nobX X) n inc g u rem heap θ) ?_ hs ⟨_, _, _, XInv.start X hfr hn hinc ub⟩
  rintro s t ⟨rem, heap, θ, A⟩ hst
  refine (A.step (nobX X) (StartsApart.nonAdj (nobX X) ha) hn hn' hinc hwin ?_ (Grid.sameMap_nob g) hst).2
  intro a hap b hb ho hbp
  rw [X.shape] at hb
  have haN := X.inside a hap
  have hadj := ((FMM.axisAdjacent_iff X.fits (X.inside b hbp)).1 (nbrs_symm X.fits haN hb)).2
  exact ha b hbp a hap ho hadj

/-- **C52**: with an adequate window, at any moment of a UFMM run no FROZEN cell has a larger arrival time than a cell that is not FROZEN by
more than one bucket width. -/
theorem _root_.FMV.C52_UFMM_order (X : XInput dims g h v pts) (hfr : Fresh g) (ha : StartsApart dims g pts) {n : Nat} (hn : 0 < n)
    (hn' : n ≤ 4294967296) {inc : ℝ} (hinc : 0 < inc) (hwin : WindowFits dims g h v n inc) (ub : XR → Nat) (goal : Nat) (m : Nat) (u : St XR)
    (hs : Steps (Step goal eikS) m (init g (UQ.create n (XR.fin inc) ub) pts) u) (i k : Nat) (hk : k < dims.prod)
    (hfi : u.g.state i = .frozen) (hfk : u.g.state k ≠ .frozen) :
    toT (u.g.value i) ≤ toT (u.g.value k) + ((inc / n : ℝ) : WithTop ℝ) := by
  obtain ⟨rem, heap, θ, A⟩ := XInv.reach X hfr ha hn hn' hinc hwin ub goal hs
  have h1 := A.uinv.fzle i hfi
  have h2 := A.uinv.nfge k hk hfk
  refine le_trans h1 ?_
  rw [WithTop.coe_add]
  exact add_le_add_left h2 _

/-- **C53** at any moment: with an adequate window the arrival time of every FROZEN cell is between the exact one and the exact one plus a bucket
width and twice the comparison margin per cell of the grid. -/
theorem _root_.FMV.C53_UFMM_frozen (X : XInput dims g h v pts) (hfr : Fresh g) (ha : StartsApart dims g pts) (U : Nat → WithTop ℝ)
    (hU : X.problem.IsSolution U) {n : Nat} (hn : 0 < n)
    (hn' : n ≤ 4294967296) {inc : ℝ} (hinc : 0 < inc) (hwin : WindowFits dims g h v n inc) (ub : XR → Nat) (goal : Nat) (m : Nat) (u : St XR)
    (hs : Steps (Step goal eikS) m (init g (UQ.create n (XR.fin inc) ub) pts) u) (i : Nat) (hf : u.g.state i = .frozen) :
    U i ≤ toT (u.g.value i) ∧ toT (u.g.value i) ≤ U i + ((dims.prod * (2 * eps + inc / n) : ℝ) : WithTop ℝ) := by
  obtain ⟨rem, heap, θ, A⟩ := XInv.reach X hfr ha hn hn' hinc hwin ub goal hs
  have hnR : (0 : ℝ) < n := by exact_mod_cast hn
  have hΔ : 0 ≤ inc / n := (div_pos hinc hnR).le
  have hi := A.uinv.fzN i hf
  refine ⟨(C18_UFMM X hfr U hU hn (XR.fin inc) ub goal m u hs i hi).2, ?_⟩
  have := (uanytime (nobX X) hU hΔ A.uinv _ i hi rfl).1 hf
  refine le_trans this ?_
  gcongr
  have h1 : (XInput.rank dims.prod U i : ℝ) ≤ dims.prod := by exact_mod_cast XInput.rank_le _ _ _
  have h2 := eps_pos
  have : (2 * eps + inc / n) * (XInput.rank dims.prod U i : ℝ) ≤ dims.prod * (2 * eps + inc / n) := by
    rw [mul_comm]; exact mul_le_mul_of_nonneg_right h1 (by linarith)
  exact_mod_cast this

/-- **C53**: with an adequate window, when UFMM runs out of cells every arrival time is between the exact solution and the exact solution plus
a bucket width and twice the comparison margin per cell of the grid; in particular cells that the exact wave does not reach have time `+inf`. -/
theorem _root_.FMV.C53_UFMM_final (X : XInput dims g h v pts) (hfr : Fresh g) (ha : StartsApart dims g pts) (U : Nat → WithTop ℝ)
    (hU : X.problem.IsSolution U) {n : Nat} (hn : 0 < n)
    (hn' : n ≤ 4294967296) {inc : ℝ} (hinc : 0 < inc) (hwin : WindowFits dims g h v n inc) (ub : XR → Nat) (goal : Nat) (m : Nat) (u : St XR)
    (hs : Steps (Step goal eikS) m (init g (UQ.create n (XR.fin inc) ub) pts) u) (hend : u.q.nb = 0) (i : Nat) (hi : i < dims.prod) :
    U i ≤ toT (u.g.value i) ∧ toT (u.g.value i) ≤ U i + ((dims.prod * (2 * eps + inc / n) : ℝ) : WithTop ℝ) := by
  obtain ⟨rem, heap, θ, A⟩ := XInv.reach X hfr ha hn hn' hinc hwin ub goal hs
  have hnR : (0 : ℝ) < n := by exact_mod_cast hn
  have hΔ : 0 ≤ inc / n := (div_pos hinc hnR).le
  have hheap : heap = [] := by
    have := A.inv.wf.nb_zero.1 hend
    rw [A.cont] at this
    simpa using this
  refine ⟨(C18_UFMM X hfr U hU hn (XR.fin inc) ub goal m u hs i hi).2, ?_⟩
  have B := A.uinv
  have hnn : ∀ k, u.g.nob.state k ≠ .narrow := by
    intro k hk; have := (B.nar k hk).1; rw [hheap] at this; simp at this
  have hfp : ∀ k ∈ pts, u.g.nob.state k = .frozen := by
    intro k hk
    rcases (B.ini k hk).2 with h1 | h1
    · exact h1
    · rw [hheap] at h1; simp at h1
  have hnf : ∀ k, u.g.nob.state k ≠ .frozen → tv u.g.nob k = ⊤ := by
    intro k hk
    cases hst : u.g.nob.state k with
    | frozen => exact absurd hst hk
    | narrow => exact absurd hst (hnn k)
    | opn => exact B.opn k hst (fun hp => hk (hfp k hp))
  have hTf : XInput.Tf (tv u.g.nob) u.g.nob.state = tv u.g.nob := by
    funext k; unfold XInput.Tf; split
    · rfl
    · next hk => exact (hnf k hk).symm
  refine (nobX X).accuracy hU (by linarith [eps_pos]) (fun k hk => le_of_eq (B.ini k hk).1) ?_ i hi
  intro j hj ho hjp Y hY
  by_cases hjf : u.g.nob.state j = .frozen
  · exact B.pf j hjf hjp Y (by rw [hTf]; exact hY)
  · exfalso
    have hall : ∀ m ∈ mins (Shape.mk' dims) (tv u.g.nob) j, m = ⊤ := by
      intro m hm
      by_contra hne
      obtain ⟨k, hk, e⟩ := XInput.mem_mins hm hne
      have hkf : u.g.nob.state k = .frozen := by
        by_contra hh; rw [hnf k hh] at e; exact hne e
      rcases B.closed k j hkf (nbrs_symm X.fits hj hk) ho hjp with h1 | h1
      · exact hjf h1
      · exact hnn j h1
    have hz : residL Y (mins (Shape.mk' dims) (tv u.g.nob) j) = 0 := by
      generalize mins (Shape.mk' dims) (tv u.g.nob) j = ms at hall
      clear hY
      induction ms with
      | nil => simp
      | cons m ms ih =>
        rw [residL_cons, hall m (by simp), posSq_top, ih (fun m hm => hall m (by simp [hm])), zero_add]
    rw [hz] at hY
    have := X.csq hj ho
    linarith

/-- non-vacuity: an empty 3x3 grid with unit cells and speed, starts in opposite corners and the default queue (1000 buckets, window 2): the
hypotheses hold, and a finished run exists -/
example : ∃ (g : Grid XR), XInput [3,3] g 1 (fun _ => 1) [0, 8] ∧ Fresh g ∧ StartsApart [3,3] g [0, 8] ∧ WindowFits [3,3] g 1 (fun _ => 1) 1000 2 ∧
    ∃ n s, Steps (Step noGoal eikS) n (init g (UQ.create 1000 (XR.fin 2) (fun _ => 0)) [0, 8]) s ∧ s.q.nb = 0 := by
  have hap : StartsApart [3,3] (Grid.create [3,3] (XR.fin 1) (0,0)) [0, 8] := by
    intro i hi j hj _ hadj
    obtain ⟨k, h0, h1, h2, h3⟩ := hadj
    fin_cases hi <;> fin_cases hj <;> revert h1 h2 h3 <;> (intro h1 h2 h3)
    all_goals
      have h4 : k = 0 ∨ k = 1 := by
        have : k < 2 := h1
        omega
      rcases h4 with rfl | rfl <;> revert h2 <;> decide
  have hin : Input [3,3] (Grid.create [3,3] (XR.fin 1) (0,0)) [0, 8] := ⟨⟨by decide, by decide, by decide⟩, rfl, by decide⟩
  refine ⟨Grid.create [3,3] (XR.fin 1) (0,0), ⟨⟨by decide, by decide, by decide⟩, by decide, rfl, by decide, one_pos, rfl, fun _ _ _ => rfl⟩,
    ⟨fun _ => rfl, fun _ => rfl, fun _ => rfl⟩, hap, ?_, ?_⟩
  · intro j _ _
    unfold XR.eps; norm_num
  have hz := zeroFirst_exact (size := 1000) (inc := 2) (by norm_num) (fun _ => 0) [0, 8]
  obtain ⟨n, s, _, h, _, he⟩ := (C50_UFMM_terminates_partial hin (fun _ => rfl) hap (by norm_num) (XR.fin 2) (fun _ => 0) hz noGoal).2
  exact ⟨n, s, h, he (by decide)⟩

end UFMM
end FMV
