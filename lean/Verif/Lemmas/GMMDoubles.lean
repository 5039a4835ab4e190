import Verif.Lemmas.GMMApprox
import Verif.Lemmas.LowF64
import Verif.Props.GMMSmall
/-! GMM in doubles with a small time step: the invariant of the wave (fm/gmm.hpp). -/
set_option linter.unusedSectionVars false
set_option linter.unusedVariables false
namespace FMV
open Spec Shape XR FMM
variable {R : Rounding}
variable {dims : List Nat} {g : Grid (F64 R)} {h : ℝ} {v : Nat → ℝ} {pts : List Nat} {cm cM A : ℝ}

/-- the local solver in doubles exceeds no time that the values it uses explain -/
theorem DInput.eik_used (I : DInput dims g h v pts cm cM A) {g' : Grid (F64 R)} (hm : SameMap g g') (hg : GoodG (gridX g'))
    (hA : ∀ i (r : ℝ), tf g' i = (r : WithTop ℝ) → r ≤ A) {i : Nat} (hi : i < dims.prod) (ho : g.occ i = false) {Y : ℝ}
    (hr : (h / v i)^2 ≤ residR Y (usableT (tf g' i) (mins (Shape.mk' dims) (tf g') i))) :
    toT (eikS g' i).1.1 ≤ ((Y + I.β : ℝ) : WithTop ℝ) := by
  have hs : g'.shape = Shape.mk' dims := hm.shape.trans I.X.shape
  have ho' : (gridX g).occ i = false := ho
  have S := I.scale hi ho
  have hc := S.cpos
  rw [eikS_eq_solve I.X.fits I.X.two hs hi]
  set us := usableT (tf g' i) (mins (Shape.mk' dims) (tf g') i) with hus
  have hu := usable_eq hg i
  rw [gridX_usable, gridX_shape, hs] at hu
  change (usable g' i).map (·.1) = us.map fin at hu
  have hnum : ∀ t ∈ usable g' i, F64.IsNum t := by
    intro t ht
    have : t.1 ∈ (usable g' i).map (·.1) := List.mem_map_of_mem ht
    rw [hu, List.mem_map] at this
    obtain ⟨r, _, e⟩ := this
    exact (F64.isNum_of e.symm).1
  have hrv : (usable g' i).map F64.rv = us := by
    have : ((usable g' i).map (·.1)).map (fun x : XR => match x with | .fin r => r | _ => 0) = us := by
      rw [hu, List.map_map]; simp [Function.comp_def]
    rw [List.map_map] at this
    exact this
  have hle : ∀ t ∈ us, 0 ≤ t ∧ t ≤ A := by
    intro t ht
    rw [hus, mem_usableT] at ht
    have h1 := ht.1
    unfold mins at h1
    rw [List.mem_map] at h1
    obtain ⟨k, hk, he⟩ := h1
    obtain ⟨j, hj, hje⟩ := dimMin_attained (s := Shape.mk' dims) (T := tf g') (i := i) (k := k) (by rw [he]; exact WithTop.coe_ne_top)
    rw [he] at hje
    refine ⟨?_, hA j t hje.symm⟩
    have := (hg j).toT_nonneg
    have h2 : toT ((gridX g').value j) = (t : WithTop ℝ) := hje.symm
    rw [h2] at this
    exact_mod_cast this
  have hT : F64.Times A (usable g' i) := by
    intro t ht
    have : F64.rv t ∈ us := by rw [← hrv]; exact List.mem_map_of_mem ht
    exact ⟨hnum t ht, hle _ this⟩
  have hlen : (usable g' i).length ≤ dims.length := by
    unfold usable
    refine le_trans (List.length_filter_le _ _) ?_
    rw [List.length_map, List.length_range, hs]; exact le_refl _
  have e0 : solveEikonal g' i = solveList g'.leaf (g'.vel i) (usable g' i) := rfl
  have hleaf : (g'.leaf).1 = .fin h := by rw [hm.leaf]; exact I.X.leaf
  have hvel : (g'.vel i).1 = .fin (v i) := by
    rw [SameMap.vel_eq hm]; exact I.X.speed i hi ho'
  have hcc : 0 < (h / v i)^2 := by positivity
  by_cases hne : usable g' i = []
  · have hus0 : us = [] := by rw [← hrv, hne]; rfl
    rw [hus0, residR_nil] at hr
    linarith
  · obtain ⟨u, used, unused, x1, x2, x3, x4, x5, x6, x7⟩ := (F64.solveList64 S hleaf hvel hne hT hlen).ex
    rw [hrv] at x2
    rw [e0]
    set x := solveList g'.leaf (g'.vel i) (usable g' i) with hx
    have hperm : us.Perm (used ++ unused) := by rw [← x2]; exact (List.perm_insertionSort _ _).symm
    have he0 := F64.eerr_nonneg hc A dims.length
    have hee := I.e_ge hi ho
    set er := F64.eerr (h / v i) A dims.length with her
    have hx4 := abs_le.1 x4
    have hxT : toT x.1 = ((F64.rv x : ℝ) : WithTop ℝ) := by
      have : x.1 = .fin (F64.rv x) := x1
      rw [this]; rfl
    rw [hxT]
    by_contra hcon
    have hlt : Y + I.β < F64.rv x := by
      have := not_le.1 hcon
      exact_mod_cast this
    rw [residR_perm _ hperm, residR_append] at hr
    have h1 : residR Y unused = 0 := by
      apply residR_eq_zero
      intro t ht
      have := x7 t ht
      have h2 := I.e_nonneg
      unfold DInput.β at hlt
      linarith
    have h2 : Y < u := by
      unfold DInput.β at hlt
      have := eps_pos
      linarith
    have := residR_lt_sqs' hc h2 x5
    linarith

/-- the residual of values that are all usable -/
theorem resid_used {ι : Type} (l : List ι) (m m' : ι → WithTop ℝ) {Ti : WithTop ℝ} {Y : ℝ}
    (hm : ∀ k ∈ l, m' k = ⊤ ∨ (m k ≤ m' k ∧ m k < Ti)) : residL Y (l.map m') ≤ residR Y (usableT Ti (l.map m)) := by
  induction l with
  | nil => simp
  | cons k l ih =>
    have ih' := ih (fun k hk => hm k (by simp [hk]))
    rw [List.map_cons, List.map_cons, residL_cons]
    rcases hm k (by simp) with h1 | ⟨h1, h2⟩
    · rw [h1, posSq_top, zero_add]
      refine le_trans ih' ?_
      cases m k with
      | top => rw [usableT_cons_top]
      | coe r =>
        rw [usableT_cons_coe]; split
        · rw [residR_cons]; nlinarith [sq_nonneg (max (Y - r) 0)]
        · exact le_refl _
    · have h3 := posSq_anti Y h1
      cases hmk : m k with
      | top => rw [hmk] at h2; exact absurd h2 not_top_lt
      | coe r =>
        rw [hmk] at h2 h3
        rw [usableT_cons_coe, if_pos h2, residR_cons]
        rw [posSq_coe] at h3
        linarith

namespace GMM64
open GMM
open GMMA (SCv Small bz kap)

/-- the standing assumptions: `w` bounds the gain of one move -/
structure Ctx (I : DInput dims g h v pts cm cM A) (w d : ℝ) : Prop where
  w0 : 0 ≤ w
  hw : ∀ i, i < dims.prod → g.occ i = false → h / v i + I.β ≤ w
  hwA : w * dims.prod ≤ A
  sm : Small I.X I.θ I.β d

variable {I : DInput dims g h v pts cm cM A} {w d τ : ℝ}

theorem Ctx.cA (C : Ctx I w d) (g' : Grid (F64 R)) : w * ((0 + (DInput.reached dims g').card : Nat) : ℝ) ≤ A := by
  refine le_trans (mul_le_mul_of_nonneg_left ?_ C.w0) C.hwA
  have := DInput.card_reached_le (dims := dims) g'
  exact_mod_cast (by omega : 0 + (DInput.reached dims g').card ≤ dims.prod)

theorem Ctx.le (C : Ctx I w d) {g' : Grid (F64 R)} (J : I.GI w g') : ∀ i (r : ℝ), tf g' i = (r : WithTop ℝ) → r ≤ A := J.le I (C.cA g')

theorem skip64 {g' : Grid (F64 R)} (hm : SameMap g g') {j : Nat} : ¬ Skip g' j ↔ g'.state j ≠ .frozen ∧ g.occ j = false := by
  rw [skip_iff, SameMap.occ_eq hm, SameMap.vel_eq hm]
  refine ⟨fun c => ⟨c.1, c.2.1⟩, fun c => ⟨c.1, c.2, ?_⟩⟩
  cases hv : Arith.eq (g.vel j) Arith.zero with
  | false => rfl
  | true =>
    have : (gridX g).occ j = true := zeroOcc_xr (gridX g) j hv
    have : g.occ j = true := this
    rw [c.2] at this; cases this

theorem zeroOcc64 (g : Grid (F64 R)) : ZeroOcc g := fun j hv => zeroOcc_xr (gridX g) j hv

theorem lower_upd64 (C : Ctx I w d) {g' : Grid (F64 R)} (J : I.GI w g') {j : Nat} (hj : j < dims.prod) (ho : g.occ j = false) :
    GMMA.Upd I.X I.θ I.β j (toT (eikS g' j).1.1) (tf g') (tf (lower eikS g' j)) := by
  obtain ⟨hgd, hap⟩ := I.eik J.map J.good (C.le J) hj ho
  refine ⟨?_, ?_, hap⟩
  · intro z hz; rw [tf_eq, tf_eq, lower_value_ne _ _ hz]
  · have hgj : GoodT (g'.value j).1 := J.good j
    unfold lower
    dsimp only
    split
    · next hlt =>
      have hlt' : toT (eikS g' j).1.1 < toT (g'.value j).1 := (lt_good hgd hgj).1 hlt
      rw [min_eq_right (show toT (eikS g' j).1.1 ≤ tf g' j from hlt'.le), tf_eq, Grid.value_setValue, if_pos rfl]
    · next hlt =>
      have : ¬ toT (eikS g' j).1.1 < tf g' j := fun c => hlt ((lt_good hgd hgj).2 c)
      rw [min_eq_left (not_lt.1 this)]
      rfl

theorem gi_lower (C : Ctx I w d) {g' : Grid (F64 R)} (J : I.GI w g') {j : Nat} (hj : j < dims.prod) (ho : g.occ j = false) :
    I.GI w (lower eikS g' j) := DInput.GI.lower I C.w0 C.hw C.hwA J hj (by rw [SameMap.occ_eq J.map]; exact ho)

/-- the state of the wave, relative to `tm_ = τ` -/
structure RI (I : DInput dims g h v pts cm cM A) (w d τ : ℝ) (rest : List Nat) (g' : Grid (F64 R)) : Prop where
  low : I.GI w g'
  rb : GMMA.RB I.X I.θ I.β d τ rest (tf g') g'.state
  i4 : ∀ y, y < dims.prod → g.occ y = false → g'.state y = .opn → tf g' y ≠ ⊤ → ∃ x ∈ rest, y ∈ (Shape.mk' dims).nbrs x ∧ tf g' x ≤ (τ : WithTop ℝ)

theorem relax1_le64 (C : Ctx I w d) {g' : Grid (F64 R)} (J : I.GI w g') {j : Nat} (hj : j < dims.prod) (z : Nat) :
    tf (GMM.relax1 eikS g' j) z ≤ tf g' z := by
  unfold GMM.relax1
  split
  · exact le_refl _
  · next hns => exact (lower_upd64 C J hj ((skip64 J.map).1 hns).2).le z

/-- first pass, one neighbour -/
theorem RI.relax1 (C : Ctx I w d) {rest : List Nat} {g' : Grid (F64 R)} (Q : RI I w d τ rest g') {x j : Nat}
    (hx : x ∈ rest) (hxN : x < dims.prod) (hxj : j ∈ (Shape.mk' dims).nbrs x) (hτ : tf g' x ≤ (τ : WithTop ℝ)) :
    RI I w d τ rest (GMM.relax1 eikS g' j) ∧ tf (GMM.relax1 eikS g' j) x ≤ (τ : WithTop ℝ) := by
  have hj := nbr_lt I.X.fits hxN hxj
  have hle := relax1_le64 C Q.low hj
  refine ⟨⟨?_, ?_, ?_⟩, le_trans (hle x) hτ⟩
  · unfold GMM.relax1
    split
    · exact Q.low
    · next hns => exact gi_lower C Q.low hj ((skip64 Q.low.map).1 hns).2
  · unfold GMM.relax1
    split
    · exact Q.rb
    · next hns =>
      obtain ⟨h1, h2⟩ := (skip64 Q.low.map).1 hns
      exact (Q.rb.upd C.sm hj h2 h1 (lower_upd64 C Q.low hj h2)).congr (fun _ => rfl) (fun z => by rw [lower_state]) (fun _ _ _ _ h => h)
  · intro y hy ho hst hne
    rw [(relax1_p1 eikS g' hj).state] at hst
    by_cases e : y = j
    · subst e; exact ⟨x, hx, hxj, le_trans (hle x) hτ⟩
    · have : tf (GMM.relax1 eikS g' j) y = tf g' y := by
        unfold GMM.relax1
        split
        · rfl
        · rw [tf_eq, tf_eq, lower_value_ne _ _ e]
      rw [this] at hne
      obtain ⟨z, z1, z2, z3⟩ := Q.i4 y hy ho hst hne
      exact ⟨z, z1, z2, le_trans (hle z) z3⟩

theorem RI.relax1s (C : Ctx I w d) {rest : List Nat} {x : Nat} (hx : x ∈ rest) (hxN : x < dims.prod) :
    ∀ (ns : List Nat) (g' : Grid (F64 R)), RI I w d τ rest g' → (∀ j ∈ ns, j ∈ (Shape.mk' dims).nbrs x) → tf g' x ≤ (τ : WithTop ℝ) →
    RI I w d τ rest (ns.foldl (GMM.relax1 eikS) g') := by
  intro ns
  induction ns with
  | nil => intro g' Q _ _; exact Q
  | cons j js ih =>
    intro g' Q hN hτ
    obtain ⟨Q', h'⟩ := Q.relax1 C hx hxN (hN j (by simp)) hτ
    rw [List.foldl_cons]
    exact ih _ Q' (fun k hk => hN k (by simp [hk])) h'

theorem le_tm {a tm : F64 R} (ha : GoodT a.1) (ht : tm.1 = .fin τ) : Arith.le a tm = true ↔ toT a.1 ≤ (τ : WithTop ℝ) := by
  rw [← le_fin_iff ha τ]
  show XR.le a.1 tm.1 = true ↔ _
  rw [ht]
  rfl

/-- first pass -/
theorem RI.pass1 (C : Ctx I w d) {rest : List Nat} (hrN : ∀ x ∈ rest, x < dims.prod) {tm : F64 R} (htm : tm.1 = .fin τ) {g' : Grid (F64 R)}
    (Q : RI I w d τ rest g') : RI I w d τ rest (GMM.pass1 eikS tm rest g') := by
  unfold GMM.pass1
  have : ∀ (l : List Nat) (g' : Grid (F64 R)), (∀ x ∈ l, x ∈ rest) → RI I w d τ rest g' → RI I w d τ rest
      (l.foldl (fun g x => if Arith.le (g.value x) tm then (g.shape.nbrs x).foldl (GMM.relax1 eikS) g else g) g') := by
    intro l
    induction l with
    | nil => intro g' _ Q; exact Q
    | cons x xs ih =>
      intro g' hl Q
      rw [List.foldl_cons]
      apply ih _ (fun y hy => hl y (by simp [hy]))
      split
      · next hle =>
        have hτ : tf g' x ≤ (τ : WithTop ℝ) := (le_tm (Q.low.good x) htm).1 hle
        rw [Q.low.map.shape.trans I.X.shape]
        exact RI.relax1s C (hl x (by simp)) (hrN x (hl x (by simp))) _ _ Q (fun _ h => h) hτ
      · exact Q
  exact this _ g' (fun x hx => by simpa using hx) Q

/-- second pass, one neighbour of `x` -/
structure VI (I : DInput dims g h v pts cm cM A) (w d τ : ℝ) (x : Nat) (rest : List Nat) (W : Nat → WithTop ℝ) (done : List Nat) (g0 g' : Grid (F64 R)) :
    Prop where
  low : I.GI w g'
  rb : GMMA.RB I.X I.θ I.β d τ (x :: rest) (tf g') g'.state
  i4 : ∀ y, y < dims.prod → g.occ y = false → g'.state y = .opn → tf g' y ≠ ⊤ →
    ∃ z ∈ (x :: rest), y ∈ (Shape.mk' dims).nbrs z ∧ tf g' z ≤ (τ : WithTop ℝ)
  leW : ∀ z, z < dims.prod → tf g' z ≤ W z
  fr : ∀ z, g'.state z = .frozen ↔ g0.state z = .frozen
  frv : ∀ z, g0.state z = .frozen → g'.value z = g0.value z
  xv : g'.value x = g0.value x
  conv : ∀ j ∈ done, j < dims.prod → g.occ j = false → g'.state j ≠ .frozen → SCv I.X I.β W j (tf g' j)

theorem VI.relax2 (C : Ctx I w d) {x : Nat} {rest done : List Nat} {W : Nat → WithTop ℝ} {g0 : Grid (F64 R)}
    {s : GMM.St (F64 R)} (V : VI I w d τ x rest W done g0 s.g) {j : Nat} (hxN : x < dims.prod) (hxj : j ∈ (Shape.mk' dims).nbrs x) :
    VI I w d τ x rest W (done ++ [j]) g0 (GMM.relax2 eikS s j).g := by
  have hj := nbr_lt I.X.fits hxN hxj
  have hxne : x ≠ j := by rintro rfl; exact nbrs_irrefl I.X.fits hxN hxj
  obtain ⟨a1, a2, a3, a4, a5, _⟩ := relax2_spec eikS s hj
  have hfr : ∀ z, (GMM.relax2 eikS s j).g.state z = .frozen ↔ s.g.state z = .frozen := by
    intro z; rw [a4]; split
    · next c => rw [c.1]; simp [c.2.2]
    · rfl
  by_cases hsk : Skip s.g j
  · have e : GMM.relax2 eikS s j = s := by unfold GMM.relax2; rw [if_pos hsk]
    rw [e]
    refine ⟨V.low, V.rb, V.i4, V.leW, V.fr, V.frv, V.xv, ?_⟩
    intro k hk hkN ho hst
    rcases List.mem_append.1 hk with hk | hk
    · exact V.conv k hk hkN ho hst
    · have : k = j := by simpa using hk
      subst this
      exact absurd hsk ((skip64 V.low.map).2 ⟨hst, ho⟩)
  · obtain ⟨h1, h2⟩ := (skip64 V.low.map).1 hsk
    have hu := lower_upd64 C V.low hj h2
    have ev : ∀ k, (GMM.relax2 eikS s j).g.value k = (lower eikS s.g j).value k := by
      intro k
      unfold GMM.relax2; rw [if_neg hsk]
      dsimp only
      split
      · rw [Grid.value_setState]
      · rfl
    have et : ∀ k, tf (GMM.relax2 eikS s j).g k = tf (lower eikS s.g j) k := fun k => by rw [tf_eq, tf_eq, ev]
    refine ⟨?_, ?_, ?_, ?_, fun z => (hfr z).trans (V.fr z), ?_, ?_, ?_⟩
    · have := DInput.GI.relax2s I C.w0 C.hw C.hwA [j] s (by simpa using hj) V.low
      simpa using this
    · exact (V.rb.upd C.sm hj h2 h1 hu).congr et hfr (fun _ _ _ _ h => h)
    · intro y hy ho hst hne
      have hyj : y ≠ j := by
        rintro rfl
        rw [a4] at hst
        split at hst
        · cases hst
        · next c => exact c ⟨rfl, hsk, hst⟩
      rw [a4, if_neg (fun c => hyj c.1)] at hst
      rw [et, hu.other y hyj] at hne
      obtain ⟨z, z1, z2, z3⟩ := V.i4 y hy ho hst hne
      exact ⟨z, z1, z2, by rw [et]; exact le_trans (hu.le z) z3⟩
    · intro z hz; rw [et]; exact le_trans (hu.le z) (V.leW z hz)
    · intro z hz
      have hzj : z ≠ j := by rintro rfl; exact h1 ((V.fr z).2 hz)
      rw [ev, lower_value_ne _ _ hzj]; exact V.frv z hz
    · rw [ev, lower_value_ne _ _ hxne]; exact V.xv
    · intro k hk hkN ho hst
      have hst' : s.g.state k ≠ .frozen := fun c => hst ((hfr k).2 c)
      rw [et]
      by_cases e : k = j
      · subst e
        exact (hu.scv C.sm.β0).mono (fun z hz => V.leW z (nbr_lt I.X.fits hkN hz)) (le_refl _)
      · rw [hu.other k e]
        rcases List.mem_append.1 hk with hk | hk
        · exact V.conv k hk hkN ho hst'
        · exact absurd (by simpa using hk) e

theorem VI.relax2s (C : Ctx I w d) {x : Nat} {rest : List Nat} {W : Nat → WithTop ℝ} {g0 : Grid (F64 R)}
    (hxN : x < dims.prod) : ∀ (ns done : List Nat) (s : GMM.St (F64 R)), VI I w d τ x rest W done g0 s.g → (∀ j ∈ ns, j ∈ (Shape.mk' dims).nbrs x) →
    VI I w d τ x rest W (done ++ ns) g0 (ns.foldl (GMM.relax2 eikS) s).g := by
  intro ns
  induction ns with
  | nil => intro done s V _; simpa using V
  | cons j js ih =>
    intro done s V hN
    rw [List.foldl_cons]
    have := ih (done ++ [j]) _ (V.relax2 C hxN (hN j (by simp))) (fun k hk => hN k (by simp [hk]))
    simpa using this

/-- second pass, one element of the list -/
theorem RI.visit (C : Ctx I w d) {s : GMM.St (F64 R)} {x : Nat} {rest : List Nat} (hxN : x < dims.prod)
    (hτ : s.tm.1 = fin τ) (Q : RI I w d τ (x :: rest) s.g) (goal : Nat) : RI I w d τ rest (GMM.visit goal eikS s x rest).g := by
  unfold GMM.visit
  split
  · next hle =>
    have hxτ : tf s.g x ≤ (τ : WithTop ℝ) := (le_tm (Q.low.good x) hτ).1 hle
    dsimp only
    rw [Q.low.map.shape.trans I.X.shape]
    set W : Nat → WithTop ℝ := fun z => if z = x ∨ s.g.state z = .frozen then tf s.g z else ⊤ with hW
    have V0 : VI I w d τ x rest W [] s.g s.g := by
      refine ⟨Q.low, Q.rb, Q.i4, ?_, fun _ => Iff.rfl, fun _ _ => rfl, rfl, by simp⟩
      intro z _
      rw [hW]; dsimp only; split
      · exact le_refl _
      · exact le_top
    have V := VI.relax2s C hxN ((Shape.mk' dims).nbrs x) [] s V0 (fun _ h => h)
    obtain ⟨b1, b2, b3, b4, b5, _⟩ := relax2s_spec eikS (N := dims.prod) ((Shape.mk' dims).nbrs x) s (fun j hj => nbr_lt I.X.fits hxN hj)
    set s1 := ((Shape.mk' dims).nbrs x).foldl (GMM.relax2 eikS) s with hs1
    have hstt : ∀ k, (s1.g.setState x .frozen).state k = if k = x then .frozen else s1.g.state k := fun k => Grid.state_setState _ _ _ _
    have htv : ∀ k, tf (s1.g.setState x .frozen) k = tf s1.g k := fun k => by rw [tf_eq, tf_eq, Grid.value_setState]
    have hfz : ∀ z, (s1.g.setState x .frozen).state z = .frozen ↔ z = x ∨ s1.g.state z = .frozen := by
      intro z; rw [hstt]; split
      · next e => simp [e]
      · next e => simp [e]
    refine ⟨DInput.GI.congr I V.low (sameMap_setState _ _ _) (fun k => Grid.value_setState _ _ _ _), ?_, ?_⟩
    · have hx1 : tf s1.g x ≤ (τ : WithTop ℝ) := by
        have : tf s1.g x = tf s.g x := by rw [tf_eq, tf_eq, V.xv]
        rw [this]; exact hxτ
      have := V.rb.freeze (st' := (s1.g.setState x .frozen).state) hx1 hfz ?_ hxN
      · exact this.congr htv (fun _ => Iff.rfl) (fun _ _ _ _ h => h)
      · intro j hj hjN ho hst
        refine (V.conv j (by simpa using hj) hjN ho hst).mono ?_ (le_refl _)
        intro z hz
        rw [hW]
        unfold XInput.Tf
        dsimp only
        by_cases c : z = x ∨ s1.g.state z = .frozen
        · rw [if_pos ((hfz z).2 c), if_pos (by rcases c with c | c; exacts [Or.inl c, Or.inr ((V.fr z).1 c)])]
          rcases c with c | c
          · rw [c, tf_eq, tf_eq, V.xv]
          · rw [tf_eq, tf_eq, V.frv z ((V.fr z).1 c)]
        · rw [if_neg (fun q => c ((hfz z).1 q))]; exact le_top
    · intro y hy ho hst hne
      rw [hstt] at hst
      split at hst
      · cases hst
      · rw [htv] at hne
        obtain ⟨z, z1, z2, z3⟩ := V.i4 y hy ho hst hne
        rcases List.mem_cons.1 z1 with rfl | z1
        · exfalso
          rw [b4] at hst
          split at hst
          · cases hst
          · next c => exact c ⟨z2, (skip64 Q.low.map).2 ⟨by rw [hst]; simp, ho⟩, hst⟩
        · exact ⟨z, z1, z2, by rw [htv]; exact z3⟩
  · next hle =>
    have hxτ : ¬ tf s.g x ≤ (τ : WithTop ℝ) := fun c => hle ((le_tm (Q.low.good x) hτ).2 c)
    refine ⟨Q.low, Q.rb.pass C.sm (not_le.1 hxτ).le, ?_⟩
    intro y hy ho hst hne
    obtain ⟨z, z1, z2, z3⟩ := Q.i4 y hy ho hst hne
    rcases List.mem_cons.1 z1 with rfl | z1
    · exact absurd z3 hxτ
    · exact ⟨z, z1, z2, z3⟩

end GMM64
end FMV
