import Verif.Lemmas.Compare
import Verif.Props.F64Accuracy
/-!
Every computed time is explained by times of neighbours: `Sup` holds at every moment of FMM, FSM, LSM and DDQM, in exact arithmetic and in doubles.
-/
set_option linter.unusedSectionVars false
set_option linter.unusedVariables false
namespace FMV
open Spec Shape XR FMM

/-- the time of every reached cell outside `pts` is not below what its neighbours justify if crossing cell `i` takes `c i` -/
def Sup (dims : List Nat) (c : Nat → ℝ) (pts : List Nat) (T : Nat → WithTop ℝ) : Prop :=
  ∀ i, i < dims.prod → i ∉ pts → ∀ r : ℝ, T i = (r : WithTop ℝ) → (c i)^2 ≤ residL r (mins (Shape.mk' dims) T i)

theorem Sup.start {dims : List Nat} {c : Nat → ℝ} {pts : List Nat} {T : Nat → WithTop ℝ} (h : ∀ i, i ∉ pts → T i = ⊤) : Sup dims c pts T := by
  intro i _ hi r hr; rw [h i hi] at hr; exact absurd hr WithTop.top_ne_coe

theorem Sup.update {dims : List Nat} {c : Nat → ℝ} {pts : List Nat} {T T' : Nat → WithTop ℝ} (S : Sup dims c pts T) (j : Nat)
    (h1 : ∀ k, k ≠ j → T' k = T k) (h2 : T' j ≤ T j) (h3 : ∀ r : ℝ, T' j = (r : WithTop ℝ) → (c j)^2 ≤ residL r (mins (Shape.mk' dims) T j)) : Sup dims c pts T' := by
  have hle : ∀ k, T' k ≤ T k := by
    intro k
    by_cases hk : k = j
    · subst hk; exact h2
    · rw [h1 k hk]
  intro i hi hp r hr
  by_cases hij : i = j
  · subst hij
    exact le_trans (h3 r hr) (residL_mins_anti _ hle _ _)
  · rw [h1 i hij] at hr
    exact le_trans (S i hi hp r hr) (residL_mins_anti _ hle _ _)

/-- a neighbour that explains the time -/
theorem Sup.down {dims : List Nat} {c : Nat → ℝ} {pts : List Nat} {T : Nat → WithTop ℝ} (S : Sup dims c pts T) {i : Nat} (hi : i < dims.prod) (hp : i ∉ pts)
    (hc : 0 < c i) {r : ℝ} (hr : T i = (r : WithTop ℝ)) :
    ∃ j ∈ (Shape.mk' dims).nbrs i, ∃ t : ℝ, T j = (t : WithTop ℝ) ∧ t + c i / Real.sqrt dims.length ≤ r := by
  have h := S i hi hp r hr
  rw [residL_mins] at h
  have hD : 0 < dims.length := by
    rcases Nat.eq_zero_or_pos dims.length with h0 | h0
    · rw [h0] at h; simp at h; nlinarith
    · exact h0
  have hDr : (0:ℝ) < dims.length := by exact_mod_cast hD
  have hex : ∃ k ∈ Finset.range dims.length, (c i)^2 / dims.length ≤ posSq r (dimMin (Shape.mk' dims) T i k) := by
    by_contra hcon
    push Not at hcon
    have := Finset.sum_lt_sum_of_nonempty (s := Finset.range dims.length) ⟨0, Finset.mem_range.2 hD⟩ hcon
    rw [Finset.sum_const, Finset.card_range, nsmul_eq_mul, mul_div_cancel₀ _ hDr.ne'] at this
    linarith
  obtain ⟨k, hk, hle⟩ := hex
  have hpos : 0 < (c i)^2 / dims.length := by positivity
  have hne : dimMin (Shape.mk' dims) T i k ≠ ⊤ := by
    intro h0; rw [h0, posSq_top] at hle; linarith
  obtain ⟨j, hj, e⟩ := dimMin_attained hne
  obtain ⟨t, ht⟩ := WithTop.ne_top_iff_exists.1 hne
  have hjm : j ∈ (Shape.mk' dims).nbrs i := by
    exact Shape.mem_nbrs.2 ⟨k, Finset.mem_range.1 hk, hj⟩
  refine ⟨j, hjm, t, by rw [← e, ht], ?_⟩
  rw [← ht, posSq_coe] at hle
  have hs : (c i / Real.sqrt dims.length)^2 ≤ (max (r - t) 0)^2 := by
    rw [div_pow, Real.sq_sqrt hDr.le]; exact hle
  have h0 : 0 < c i / Real.sqrt dims.length := div_pos hc (Real.sqrt_pos.2 hDr)
  have h2 := (pow_le_pow_iff_left₀ h0.le (le_max_right _ _) (by norm_num)).1 hs
  rcases max_cases (r - t) 0 with ⟨e1, _⟩ | ⟨e1, _⟩ <;> rw [e1] at h2 <;> linarith

/-! ### exact arithmetic -/

namespace XInput
variable {dims : List Nat} {g : Grid XR} {h : ℝ} {v : Nat → ℝ} {pts : List Nat}

theorem sup_write (X : XInput dims g h v pts) {g1 : Grid XR} (hm : SameMap g g1) (hg : GoodG g1) (S : Sup dims (fun i => h / v i) pts (tv g1)) {i : Nat}
    (hi : i < dims.prod) (ho : g.occ i = false) {T' : Nat → WithTop ℝ} (h1 : ∀ k, k ≠ i → T' k = tv g1 k) (h2 : T' i = toT (eikS g1 i).1) (h3 : T' i ≤ tv g1 i) :
    Sup dims (fun i => h / v i) pts T' := by
  refine S.update i h1 h3 ?_
  intro r hr
  rw [h2, X.eik_eq hm hg hi ho, toT_ofT] at hr
  exact upd_lower (X.cpos hi ho) hr

theorem sup_tried (X : XInput dims g h v pts) {g1 g2 : Grid XR} {i : Nat} {b : Bool} (I : X.SInv g1) (ht : Tried eikS g1 g2 i b) (hi : i < dims.prod)
    (ho : g.occ i = false) (S : Sup dims (fun i => h / v i) pts (tv g1)) : Sup dims (fun i => h / v i) pts (tv g2) := by
  have hT : ∀ k, k ≠ i → tv g2 k = tv g1 k := by intro k hk; unfold tv; rw [ht.other k hk]
  cases b with
  | false =>
    have : tv g2 = tv g1 := by
      funext k
      by_cases hk : k = i
      · subst hk; unfold tv; rw [ht.no rfl]
      · exact hT k hk
    rw [this]; exact S
  | true =>
    obtain ⟨hb, hv⟩ := ht.yes rfl
    have e : tv g2 i = toT (eikS g1 i).1 := by unfold tv; rw [hv]
    refine X.sup_write I.map I.good S hi ho hT e ?_
    rw [X.better_iff I.map I.good hi ho] at hb
    rw [e, X.eik_eq I.map I.good hi ho, toT_ofT]
    refine le_trans ?_ hb.le
    exact le_add_of_nonneg_right (by exact_mod_cast eps_pos.le)

theorem sup_relax (X : XInput dims g h v pts) (hna : X.NonAdj) {cfg : Cfg XR} {θ : ℝ} {x j : Nat} {rest : List Nat} {s : St XR} (m : X.FMid θ x (j :: rest) s)
    (hj : j ∈ (Shape.mk' dims).nbrs x) (S : Sup dims (fun i => h / v i) pts (tv s.g)) : Sup dims (fun i => h / v i) pts (tv (FMM.relax cfg eikS s j).g) := by
  have hjN : j < dims.prod := FMM.nbr_lt X.fits (m.mid.fzN x m.mid.fx) hj
  have hocc : s.g.occ j = g.occ j := SameMap.occ_eq m.map j
  rcases relax_cases cfg eikS s j with ⟨hsk, e⟩ | ⟨ho, hn, hb, e⟩ | ⟨ho, hn, hb, e⟩ | ⟨ho, hn, e⟩ <;> rw [e]
  · exact S
  · rw [hocc] at ho
    have hT : ∀ k, k ≠ j → tv ((applyHeur cfg (s.g.setScratch (eikS s.g j).2) j).setValue j (eikS s.g j).1) k = tv s.g k := by
      intro k hk; unfold tv; rw [Grid.value_setValue, if_neg hk, applyHeur_value]; rfl
    have e2 : tv ((applyHeur cfg (s.g.setScratch (eikS s.g j).2) j).setValue j (eikS s.g j).1) j = toT (eikS s.g j).1 := by
      unfold tv; rw [Grid.value_setValue, if_pos rfl]
    refine X.sup_write m.map m.good S hjN ho hT e2 ?_
    rw [X.better_iff m.map m.good hjN ho] at hb
    rw [e2, X.eik_eq m.map m.good hjN ho, toT_ofT]
    exact le_trans (le_add_of_nonneg_right (by exact_mod_cast eps_pos.le)) hb.le
  · have : tv (applyHeur cfg (s.g.setScratch (eikS s.g j).2) j) = tv s.g := by
      funext k; unfold tv; rw [applyHeur_value]; rfl
    show Sup _ _ _ (tv (applyHeur cfg (s.g.setScratch (eikS s.g j).2) j))
    rw [this]; exact S
  · rw [hocc] at ho
    have hT : ∀ k, k ≠ j → tv (((applyHeur cfg (s.g.setScratch (eikS s.g j).2) j).setState j .narrow).setValue j (eikS s.g j).1) k = tv s.g k := by
      intro k hk; unfold tv; rw [Grid.value_setValue, if_neg hk, Grid.value_setState, applyHeur_value]; rfl
    have e2 : tv (((applyHeur cfg (s.g.setScratch (eikS s.g j).2) j).setState j .narrow).setValue j (eikS s.g j).1) j = toT (eikS s.g j).1 := by
      unfold tv; rw [Grid.value_setValue, if_pos rfl]
    refine X.sup_write m.map m.good S hjN ho hT e2 ?_
    rw [m.mid.opn j hn (m.mid.not_init X hna hj ho (by rw [hn]; simp))]
    exact le_top

theorem sup_fold (X : XInput dims g h v pts) (hna : X.NonAdj) {cfg : Cfg XR} (hcfg : cfg.heur = .none) {θ : ℝ} {x : Nat} :
    ∀ (l : List Nat) (s : St XR), l.Nodup → (∀ j ∈ l, j ∈ (Shape.mk' dims).nbrs x) → X.FMid θ x l s → Sup dims (fun i => h / v i) pts (tv s.g) →
    Sup dims (fun i => h / v i) pts (tv (l.foldl (FMM.relax cfg eikS) s).g) := by
  intro l
  induction l with
  | nil => intro s _ _ _ hL; exact hL
  | cons j l ih =>
    intro s hnd hl m hL
    rw [List.nodup_cons] at hnd
    rw [List.foldl_cons]
    have hj := hl j (by simp)
    exact ih _ hnd.2 (fun k hk => hl k (by simp [hk])) (FMid.relax X hna hcfg m hj hnd.1) (X.sup_relax hna m hj hL)

theorem sup_step (X : XInput dims g h v pts) (hna : X.NonAdj) {cfg : Cfg XR} (hcfg : cfg.heur = .none) {s t : St XR} (I : X.FInv s)
    (S : Sup dims (fun i => h / v i) pts (tv s.g)) (hst : StepMin cfg s t) : Sup dims (fun i => h / v i) pts (tv t.g) := by
  obtain ⟨_, x, ⟨hx, hmin⟩, rfl⟩ := hst
  have hmin' : ∀ y ∈ s.heap, tv s.g x ≤ tv s.g y := by
    intro y hy
    have := hmin y hy
    rw [total_eq I.good I.hz, total_eq I.good I.hz] at this
    by_contra hlt
    have := (lt_ofT (tv s.g y) (tv s.g x)).2 (not_le.1 hlt)
    simp_all
  obtain ⟨θ, m⟩ := I.ain.pop X hx (Or.inr hmin')
  have e1 : tv (popped s x).g = tv s.g := by funext k; unfold tv; simp [popped]
  have m0 : X.FMid θ x ((Shape.mk' dims).nbrs x) (popped s x) := by
    refine ⟨I.map.trans (popped_sameMap s x), ?_, hz_setState I.hz _ _, ?_⟩
    · intro k; simp only [popped, Grid.value_setState]; exact I.good k
    · have e2 : (popped s x).g.state = fun k => if k = x then .frozen else s.g.state k := by
        funext k; simp [popped, Grid.state_setState]
      rw [e1, e2]
      exact m
  have m1 := X.sup_fold hna hcfg _ _ (nbrs_nodup X.fits (I.ain.heapN x hx)) (fun _ h => h) m0 (by rw [e1]; exact S)
  have hsh : s.g.shape = Shape.mk' dims := I.map.shape.trans X.shape
  rw [← hsh] at m1
  rw [expand_eq]
  exact m1

end XInput

/-! ### doubles -/

namespace DInput
variable {R : Rounding} {dims : List Nat} {g : Grid (F64 R)} {h : ℝ} {v : Nat → ℝ} {pts : List Nat} {cm cM A : ℝ}

theorem sup_write (I : DInput dims g h v pts cm cM A) {g1 : Grid (F64 R)} (hm : SameMap g g1) (hg : GoodG (gridX g1)) (hA : ∀ i (r : ℝ), tf g1 i = (r : WithTop ℝ) → r ≤ A)
    (S : Sup dims (fun i => h / v i - I.θ) pts (tf g1)) {i : Nat} (hi : i < dims.prod) (ho : g.occ i = false) {T' : Nat → WithTop ℝ} (h1 : ∀ k, k ≠ i → T' k = tf g1 k)
    (h2 : T' i = toT (eikS g1 i).1.1) (h3 : T' i ≤ tf g1 i) : Sup dims (fun i => h / v i - I.θ) pts T' := by
  refine S.update i h1 h3 ?_
  intro r hr
  rw [h2] at hr
  exact (I.eik hm hg hA hi ho).2.lower r hr

theorem sup_tried (I : DInput dims g h v pts cm cM A) {w : ℝ} (w0 : 0 ≤ w) (hwA : w * dims.prod ≤ A) {g1 g2 : Grid (F64 R)} {i : Nat} {b : Bool} (J : I.TInv w g1)
    (ht : Tried eikS g1 g2 i b) (hi : i < dims.prod) (ho : g.occ i = false) (S : Sup dims (fun i => h / v i - I.θ) pts (tf g1)) :
    Sup dims (fun i => h / v i - I.θ) pts (tf g2) := by
  have hT : ∀ k, k ≠ i → tf g2 k = tf g1 k := by intro k hk; rw [tf_eq, tf_eq, ht.other k hk]
  cases b with
  | false =>
    have : tf g2 = tf g1 := by
      funext k
      by_cases hk : k = i
      · subst hk; rw [tf_eq, tf_eq, ht.no rfl]
      · exact hT k hk
    rw [this]; exact S
  | true =>
    obtain ⟨hb, hv⟩ := ht.yes rfl
    have hA := J.le I w0 hwA
    obtain ⟨hgd, _⟩ := I.eik J.map J.good hA hi ho
    have e : tf g2 i = toT (eikS g1 i).1.1 := by rw [tf_eq, hv]
    refine I.sup_write J.map J.good hA S hi ho hT e ?_
    rw [e]
    exact (accept hgd (J.good i) hb).le

theorem sup_relax (I : DInput dims g h v pts cm cM A) {w : ℝ} {L : Nat} (hwA : w * (L + 1) ≤ A) (hna : I.X.NonAdj) {cfg : Cfg (F64 R)} {x j : Nat} {rest : List Nat}
    {s : St (F64 R)} (m : I.FMid w L x (j :: rest) s) (hj : j ∈ (Shape.mk' dims).nbrs x) (S : Sup dims (fun i => h / v i - I.θ) pts (tf s.g)) :
    Sup dims (fun i => h / v i - I.θ) pts (tf (FMM.relax cfg eikS s j).g) := by
  have hjN : j < dims.prod := FMM.nbr_lt I.X.fits (m.q.fzN x m.q.fx) hj
  have hocc : s.g.occ j = g.occ j := SameMap.occ_eq m.map j
  have hA : ∀ i (r : ℝ), tf s.g i = (r : WithTop ℝ) → r ≤ A := fun i r hr => le_trans (m.q.bnd i r hr) hwA
  rcases relax_cases cfg eikS s j with ⟨hsk, e⟩ | ⟨ho, hn, hb, e⟩ | ⟨ho, hn, hb, e⟩ | ⟨ho, hn, e⟩ <;> rw [e]
  · exact S
  · rw [hocc] at ho
    have hT : ∀ k, k ≠ j → tf ((applyHeur cfg (s.g.setScratch (eikS s.g j).2) j).setValue j (eikS s.g j).1) k = tf s.g k := by
      intro k hk; rw [tf_eq, tf_eq, Grid.value_setValue, if_neg hk, applyHeur_value]; rfl
    have e2 : tf ((applyHeur cfg (s.g.setScratch (eikS s.g j).2) j).setValue j (eikS s.g j).1) j = toT (eikS s.g j).1.1 := by
      rw [tf_eq, Grid.value_setValue, if_pos rfl]
    refine I.sup_write m.map m.good hA S hjN ho hT e2 ?_
    rw [e2]
    exact (accept (I.eik m.map m.good hA hjN ho).1 (m.good j) hb).le
  · have : tf (applyHeur cfg (s.g.setScratch (eikS s.g j).2) j) = tf s.g := by
      funext k; rw [tf_eq, tf_eq, applyHeur_value]; rfl
    show Sup _ _ _ (tf (applyHeur cfg (s.g.setScratch (eikS s.g j).2) j))
    rw [this]; exact S
  · rw [hocc] at ho
    have hT : ∀ k, k ≠ j → tf (((applyHeur cfg (s.g.setScratch (eikS s.g j).2) j).setState j .narrow).setValue j (eikS s.g j).1) k = tf s.g k := by
      intro k hk; rw [tf_eq, tf_eq, Grid.value_setValue, if_neg hk, Grid.value_setState, applyHeur_value]; rfl
    have e2 : tf (((applyHeur cfg (s.g.setScratch (eikS s.g j).2) j).setState j .narrow).setValue j (eikS s.g j).1) j = toT (eikS s.g j).1.1 := by
      rw [tf_eq, Grid.value_setValue, if_pos rfl]
    refine I.sup_write m.map m.good hA S hjN ho hT e2 ?_
    rw [m.q.opn j hn (m.q.not_init I.X hna hj ho (by rw [hn]; simp))]
    exact le_top

theorem sup_fold (I : DInput dims g h v pts cm cM A) {w : ℝ} {L : Nat} (P : I.X.Par I.θ I.β w L) (hwA : w * (L + 1) ≤ A) (hna : I.X.NonAdj) {cfg : Cfg (F64 R)}
    (hcfg : cfg.heur = .none) {x : Nat} : ∀ (l : List Nat) (s : St (F64 R)), l.Nodup → (∀ j ∈ l, j ∈ (Shape.mk' dims).nbrs x) → I.FMid w L x l s →
    Sup dims (fun i => h / v i - I.θ) pts (tf s.g) → Sup dims (fun i => h / v i - I.θ) pts (tf (l.foldl (FMM.relax cfg eikS) s).g) := by
  intro l
  induction l with
  | nil => intro s _ _ _ hL; exact hL
  | cons j l ih =>
    intro s hnd hl m hL
    rw [List.nodup_cons] at hnd
    rw [List.foldl_cons]
    have hj := hl j (by simp)
    exact ih _ hnd.2 (fun k hk => hl k (by simp [hk])) (FMid.relax I P hwA hna hcfg m hj hnd.1) (I.sup_relax hwA hna m hj hL)

theorem sup_step (I : DInput dims g h v pts cm cM A) {w : ℝ} {L : Nat} (P : I.X.Par I.θ I.β w L) (hwA : w * (L + 1) ≤ A) (hna : I.X.NonAdj) {cfg : Cfg (F64 R)}
    (hcfg : cfg.heur = .none) {s t : St (F64 R)} (J : I.FInv w L s) (S : Sup dims (fun i => h / v i - I.θ) pts (tf s.g)) (hst : StepMin cfg s t) :
    Sup dims (fun i => h / v i - I.θ) pts (tf t.g) := by
  obtain ⟨_, x, ⟨hx, hmin⟩, rfl⟩ := hst
  have hmin' : ∀ y ∈ s.heap, tf s.g x ≤ tf s.g y := by
    intro y hy
    have h1 : Arith.lt ((s.g.cells y).total).1 ((s.g.cells x).total).1 = false := hmin y hy
    rw [total64 J.hz J.good, total64 J.hz J.good] at h1
    by_contra hlt
    have h2 := (lt_ofT (tf s.g y) (tf s.g x)).2 (not_le.1 hlt)
    unfold tf tv at h2
    rw [(J.good y).ofT_toT, (J.good x).ofT_toT, gridX_value, gridX_value, h1] at h2
    cases h2
  have m := J.q.pop I.X P hx hmin'
  have e1 : tf (popped s x).g = tf s.g := by funext k; unfold tf tv; simp [popped]
  have m0 : I.FMid w L x ((Shape.mk' dims).nbrs x) (popped s x) := by
    refine ⟨J.map.trans (popped_sameMap s x), ?_, hz_setState J.hz _ _, ?_⟩
    · intro k; simp only [popped, gridX_value, Grid.value_setState]; exact J.good k
    · have e2 : (popped s x).g.state = fun k => if k = x then .frozen else s.g.state k := by
        funext k; simp [popped, Grid.state_setState]
      rw [e1, e2]
      exact m
  have m1 := I.sup_fold P hwA hna hcfg _ _ (nbrs_nodup I.X.fits (J.q.heapN x hx)) (fun _ h => h) m0 (by rw [e1]; exact S)
  have hsh : s.g.shape = Shape.mk' dims := J.map.shape.trans I.X.shape
  rw [← hsh] at m1
  rw [expand_eq]
  exact m1

end DInput
end FMV
