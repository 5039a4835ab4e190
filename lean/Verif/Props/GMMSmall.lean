import Verif.Lemmas.GMMSmall
import Verif.Props.GMMTerm
/-!
# C61: GMM with a small step computes the arrival times up to a known factor
-/
set_option linter.unusedSectionVars false
set_option linter.unusedVariables false
namespace FMV
open Spec Shape XR FMM
namespace GMM
variable {dims : List Nat} {g : Grid XR} {h : ℝ} {v : Nat → ℝ} {pts : List Nat}

/-- `lower` in terms of times -/
theorem lower_upd (X : XInput dims g h v pts) {g' : Grid XR} (I : LowG X g') {j : Nat} (hj : j < dims.prod) (ho : g.occ j = false) :
    Upd X j (tv g') (tv (lower eikS g' j)) := by
  have hE := X.eik_eq I.map I.good hj ho
  have hgd := X.eik_good I.map I.good hj ho
  refine ⟨?_, ?_⟩
  · intro z hz; unfold tv; rw [lower_value_ne _ _ hz]
  · have e1 : toT (eikS g' j).1 = upd (h / v j) (tv g' j) (mins (Shape.mk' dims) (tv g') j) := by rw [hE, toT_ofT]
    unfold lower
    dsimp only
    split
    · next hlt =>
      have := (lt_good hgd (I.good j)).1 hlt
      rw [← e1, min_eq_right (show toT (eikS g' j).1 ≤ tv g' j from this.le)]
      unfold tv
      rw [Grid.value_setValue, if_pos rfl]
    · next hlt =>
      have : ¬ toT (eikS g' j).1 < tv g' j := fun c => hlt ((lt_good hgd (I.good j)).2 c)
      rw [← e1, min_eq_left (not_lt.1 this)]
      rfl

/-- the state of the wave, relative to `tm_ = τ` -/
structure RI (X : XInput dims g h v pts) (d τ : ℝ) (rest : List Nat) (g' : Grid XR) : Prop where
  low : LowG X g'
  rb : RB X d τ rest (tv g') g'.state
  i4 : ∀ y, y < dims.prod → g.occ y = false → g'.state y = .opn → tv g' y ≠ ⊤ → ∃ x ∈ rest, y ∈ (Shape.mk' dims).nbrs x ∧ tv g' x ≤ (τ : WithTop ℝ)

theorem skip_xr (X : XInput dims g h v pts) {g' : Grid XR} (hm : SameMap g g') {j : Nat} :
    ¬ Skip g' j ↔ g'.state j ≠ .frozen ∧ g.occ j = false := by
  rw [skip_iff, SameMap.occ_eq hm, SameMap.vel_eq hm]
  refine ⟨fun c => ⟨c.1, c.2.1⟩, fun c => ⟨c.1, c.2, ?_⟩⟩
  cases hv : Arith.eq (g.vel j) Arith.zero with
  | false => rfl
  | true => have := zeroOcc_xr g j hv; rw [c.2] at this; cases this

/-- first pass, one neighbour -/
theorem RI.relax1 (X : XInput dims g h v pts) {d τ : ℝ} (hs : Small X d) {rest : List Nat} {g' : Grid XR} (R : RI X d τ rest g') {x j : Nat}
    (hx : x ∈ rest) (hxN : x < dims.prod) (hxj : j ∈ (Shape.mk' dims).nbrs x) (hτ : tv g' x ≤ (τ : WithTop ℝ)) :
    RI X d τ rest (relax1 eikS g' j) ∧ tv (GMM.relax1 eikS g' j) x ≤ (τ : WithTop ℝ) := by
  have hj := nbr_lt X.fits hxN hxj
  have hle := relax1_le X R.low hj
  refine ⟨⟨(relax1_p1 eikS g' hj).prim _ (LowG.prim X) R.low, ?_, ?_⟩, le_trans (hle x) hτ⟩
  · unfold GMM.relax1
    split
    · exact R.rb
    · next hns =>
      obtain ⟨h1, h2⟩ := (skip_xr X R.low.map).1 hns
      exact (R.rb.upd hs hj h2 h1 (lower_upd X R.low hj h2)).congr (fun _ => rfl) (fun z => by rw [lower_state]) (fun _ _ _ _ h => h)
  · intro y hy ho hst hne
    rw [(relax1_p1 eikS g' hj).state] at hst
    by_cases e : y = j
    · subst e; exact ⟨x, hx, hxj, le_trans (hle x) hτ⟩
    · have : tv (GMM.relax1 eikS g' j) y = tv g' y := by
        unfold GMM.relax1
        split
        · rfl
        · unfold tv; rw [lower_value_ne _ _ e]
      rw [this] at hne
      obtain ⟨z, z1, z2, z3⟩ := R.i4 y hy ho hst hne
      exact ⟨z, z1, z2, le_trans (hle z) z3⟩

theorem RI.relax1s (X : XInput dims g h v pts) {d τ : ℝ} (hs : Small X d) {rest : List Nat} {x : Nat} (hx : x ∈ rest) (hxN : x < dims.prod) :
    ∀ (ns : List Nat) (g' : Grid XR), RI X d τ rest g' → (∀ j ∈ ns, j ∈ (Shape.mk' dims).nbrs x) → tv g' x ≤ (τ : WithTop ℝ) →
    RI X d τ rest (ns.foldl (GMM.relax1 eikS) g') := by
  intro ns
  induction ns with
  | nil => intro g' R _ _; exact R
  | cons j js ih =>
    intro g' R hN hτ
    obtain ⟨R', h'⟩ := R.relax1 X hs hx hxN (hN j (by simp)) hτ
    rw [List.foldl_cons]
    exact ih _ R' (fun k hk => hN k (by simp [hk])) h'

/-- first pass -/
theorem RI.pass1 (X : XInput dims g h v pts) {d τ : ℝ} (hs : Small X d) {rest : List Nat} (hrN : ∀ x ∈ rest, x < dims.prod) {g' : Grid XR}
    (R : RI X d τ rest g') : RI X d τ rest (pass1 eikS (fin τ) rest g') := by
  unfold GMM.pass1
  have : ∀ (l : List Nat) (g' : Grid XR), (∀ x ∈ l, x ∈ rest) → RI X d τ rest g' → RI X d τ rest
      (l.foldl (fun g x => if Arith.le (g.value x) (fin τ) then (g.shape.nbrs x).foldl (GMM.relax1 eikS) g else g) g') := by
    intro l
    induction l with
    | nil => intro g' _ R; exact R
    | cons x xs ih =>
      intro g' hl R
      rw [List.foldl_cons]
      apply ih _ (fun y hy => hl y (by simp [hy]))
      split
      · next hle =>
        have hτ := (le_fin_iff (R.low.good x) τ).1 hle
        rw [R.low.map.shape.trans X.shape]
        exact RI.relax1s X hs (hl x (by simp)) (hrN x (hl x (by simp))) _ _ R (fun _ h => h) hτ
      · exact R
  exact this _ g' (fun x hx => by simpa using hx) R

/-- second pass, one neighbour of `x` -/
structure VI (X : XInput dims g h v pts) (d τ : ℝ) (x : Nat) (rest : List Nat) (W : Nat → WithTop ℝ) (done : List Nat) (g0 g' : Grid XR) : Prop where
  low : LowG X g'
  rb : RB X d τ (x :: rest) (tv g') g'.state
  i4 : ∀ y, y < dims.prod → g.occ y = false → g'.state y = .opn → tv g' y ≠ ⊤ →
    ∃ z ∈ (x :: rest), y ∈ (Shape.mk' dims).nbrs z ∧ tv g' z ≤ (τ : WithTop ℝ)
  leW : ∀ z, z < dims.prod → tv g' z ≤ W z
  fr : ∀ z, g'.state z = .frozen ↔ g0.state z = .frozen
  frv : ∀ z, g0.state z = .frozen → g'.value z = g0.value z
  xv : g'.value x = g0.value x
  conv : ∀ j ∈ done, j < dims.prod → g.occ j = false → g'.state j ≠ .frozen → SCv X W j (tv g' j)

theorem VI.relax2 (X : XInput dims g h v pts) {d τ : ℝ} (hs : Small X d) {x : Nat} {rest done : List Nat} {W : Nat → WithTop ℝ} {g0 : Grid XR}
    {s : St XR} (V : VI X d τ x rest W done g0 s.g) {j : Nat} (hxN : x < dims.prod) (hxj : j ∈ (Shape.mk' dims).nbrs x) :
    VI X d τ x rest W (done ++ [j]) g0 (relax2 eikS s j).g := by
  have hj := nbr_lt X.fits hxN hxj
  have hxne : x ≠ j := by rintro rfl; exact nbrs_irrefl X.fits hxN hxj
  obtain ⟨a1, a2, a3, a4, a5, _⟩ := relax2_spec eikS s hj
  have hfr : ∀ z, (GMM.relax2 eikS s j).g.state z = .frozen ↔ s.g.state z = .frozen := by
    intro z; rw [a4]; split
    · next c => rw [c.1]; simp [c.2.2]
    · rfl
  by_cases hsk : Skip s.g j
  · have e : GMM.relax2 eikS s j = s := by unfold GMM.relax2; rw [if_pos hsk]
    rw [e]
    refine ⟨V.low, V.rb, V.i4, V.leW, V.fr, V.frv, V.xv, ?_⟩
    intro k hk hkN ho hst
    rcases List.mem_append.1 hk with hk | hk
    · exact V.conv k hk hkN ho hst
    · have : k = j := by simpa using hk
      subst this
      exact absurd hsk ((skip_xr X V.low.map).2 ⟨hst, ho⟩)
  · obtain ⟨h1, h2⟩ := (skip_xr X V.low.map).1 hsk
    have hu := lower_upd X V.low hj h2
    have ev : ∀ k, (GMM.relax2 eikS s j).g.value k = (lower eikS s.g j).value k := by
      intro k
      unfold GMM.relax2; rw [if_neg hsk]
      dsimp only
      split
      · rw [Grid.value_setState]
      · rfl
    have et : ∀ k, tv (GMM.relax2 eikS s j).g k = tv (lower eikS s.g j) k := fun k => by unfold tv; rw [ev]
    refine ⟨a2 _ (LowG.prim X) V.low, ?_, ?_, ?_, fun z => (hfr z).trans (V.fr z), ?_, ?_, ?_⟩
    · exact (V.rb.upd hs hj h2 h1 hu).congr et hfr (fun _ _ _ _ h => h)
    · intro y hy ho hst hne
      have hyj : y ≠ j := by
        rintro rfl
        rw [a4] at hst
        split at hst
        · cases hst
        · next c => exact c ⟨rfl, hsk, hst⟩
      rw [a4, if_neg (fun c => hyj c.1)] at hst
      rw [et, hu.other y hyj] at hne
      obtain ⟨z, z1, z2, z3⟩ := V.i4 y hy ho hst hne
      exact ⟨z, z1, z2, by rw [et]; exact le_trans (hu.le z) z3⟩
    · intro z hz; rw [et]; exact le_trans (hu.le z) (V.leW z hz)
    · intro z hz
      have hzj : z ≠ j := by rintro rfl; exact h1 ((V.fr z).2 hz)
      rw [ev, lower_value_ne _ _ hzj]; exact V.frv z hz
    · rw [ev, lower_value_ne _ _ hxne]; exact V.xv
    · intro k hk hkN ho hst
      have hst' : s.g.state k ≠ .frozen := fun c => hst ((hfr k).2 c)
      rw [et]
      by_cases e : k = j
      · subst e
        exact (hu.scv hkN ho).mono (fun z hz => V.leW z (nbr_lt X.fits hkN hz)) (le_refl _)
      · rw [hu.other k e]
        rcases List.mem_append.1 hk with hk | hk
        · exact V.conv k hk hkN ho hst'
        · exact absurd (by simpa using hk) e

theorem VI.relax2s (X : XInput dims g h v pts) {d τ : ℝ} (hs : Small X d) {x : Nat} {rest : List Nat} {W : Nat → WithTop ℝ} {g0 : Grid XR}
    (hxN : x < dims.prod) : ∀ (ns done : List Nat) (s : St XR), VI X d τ x rest W done g0 s.g → (∀ j ∈ ns, j ∈ (Shape.mk' dims).nbrs x) →
    VI X d τ x rest W (done ++ ns) g0 (ns.foldl (GMM.relax2 eikS) s).g := by
  intro ns
  induction ns with
  | nil => intro done s V _; simpa using V
  | cons j js ih =>
    intro done s V hN
    rw [List.foldl_cons]
    have := ih (done ++ [j]) _ (V.relax2 X hs hxN (hN j (by simp))) (fun k hk => hN k (by simp [hk]))
    simpa using this

/-- second pass, one element of the list -/
theorem RI.visit (X : XInput dims g h v pts) {d τ : ℝ} (hs : Small X d) {s : St XR} {x : Nat} {rest : List Nat} (hxN : x < dims.prod)
    (hτ : s.tm = fin τ) (R : RI X d τ (x :: rest) s.g) (goal : Nat) : RI X d τ rest (visit goal eikS s x rest).g := by
  unfold GMM.visit
  rw [hτ]
  split
  · next hle =>
    have hxτ := (le_fin_iff (R.low.good x) τ).1 hle
    dsimp only
    rw [R.low.map.shape.trans X.shape]
    set W : Nat → WithTop ℝ := fun z => if z = x ∨ s.g.state z = .frozen then tv s.g z else ⊤ with hW
    have V0 : VI X d τ x rest W [] s.g s.g := by
      refine ⟨R.low, R.rb, R.i4, ?_, fun _ => Iff.rfl, fun _ _ => rfl, rfl, by simp⟩
      intro z _
      rw [hW]; dsimp only; split
      · exact le_refl _
      · exact le_top
    have V := VI.relax2s X hs hxN ((Shape.mk' dims).nbrs x) [] s V0 (fun _ h => h)
    obtain ⟨b1, b2, b3, b4, b5, _⟩ := relax2s_spec eikS (N := dims.prod) ((Shape.mk' dims).nbrs x) s (fun j hj => nbr_lt X.fits hxN hj)
    set s1 := ((Shape.mk' dims).nbrs x).foldl (GMM.relax2 eikS) s with hs1
    have hstt : ∀ k, (s1.g.setState x .frozen).state k = if k = x then .frozen else s1.g.state k := fun k => Grid.state_setState _ _ _ _
    have htv : ∀ k, tv (s1.g.setState x .frozen) k = tv s1.g k := fun k => by unfold tv; rw [Grid.value_setState]
    have hfz : ∀ z, (s1.g.setState x .frozen).state z = .frozen ↔ z = x ∨ s1.g.state z = .frozen := by
      intro z; rw [hstt]; split
      · next e => simp [e]
      · next e => simp [e]
    refine ⟨(LowG.prim X).state _ _ _ V.low, ?_, ?_⟩
    · have hx1 : tv s1.g x ≤ (τ : WithTop ℝ) := by
        have : tv s1.g x = tv s.g x := by unfold tv; rw [V.xv]
        rw [this]; exact hxτ
      have := V.rb.freeze (st' := (s1.g.setState x .frozen).state) hx1 hfz ?_ hxN
      · exact this.congr htv (fun _ => Iff.rfl) (fun _ _ _ _ h => h)
      · intro j hj hjN ho hst
        refine (V.conv j (by simpa using hj) hjN ho hst).mono ?_ (le_refl _)
        intro z hz
        rw [hW]
        unfold XInput.Tf
        dsimp only
        by_cases c : z = x ∨ s1.g.state z = .frozen
        · rw [if_pos ((hfz z).2 c), if_pos (by rcases c with c | c; exacts [Or.inl c, Or.inr ((V.fr z).1 c)])]
          rcases c with c | c
          · rw [c]; unfold tv; rw [V.xv]
          · unfold tv; rw [V.frv z ((V.fr z).1 c)]
        · rw [if_neg (fun q => c ((hfz z).1 q))]; exact le_top
    · intro y hy ho hst hne
      rw [hstt] at hst
      split at hst
      · cases hst
      · rw [htv] at hne
        obtain ⟨z, z1, z2, z3⟩ := V.i4 y hy ho hst hne
        rcases List.mem_cons.1 z1 with rfl | z1
        · exfalso
          rw [b4] at hst
          split at hst
          · cases hst
          · next c => exact c ⟨z2, (skip_xr X R.low.map).2 ⟨by rw [hst]; simp, ho⟩, hst⟩
        · exact ⟨z, z1, z2, by rw [htv]; exact z3⟩
  · next hle =>
    have hxτ : ¬ tv s.g x ≤ (τ : WithTop ℝ) := fun c => hle ((le_fin_iff (R.low.good x) τ).2 c)
    refine ⟨R.low, R.rb.pass hs (not_le.1 hxτ).le, ?_⟩
    intro y hy ho hst hne
    obtain ⟨z, z1, z2, z3⟩ := R.i4 y hy ho hst hne
    rcases List.mem_cons.1 z1 with rfl | z1
    · exact absurd z3 hxτ
    · exact ⟨z, z1, z2, z3⟩

/-- the invariant of the main loop -/
structure RS (X : XInput dims g h v pts) (d : ℝ) (s : St XR) : Prop where
  ginv : GInv dims eikS g pts s
  ri : s.gamma = [] ∧ s.rest = [] ∧ (∃ τ : ℝ, RI X d τ [] s.g) ∨ ∃ τ : ℝ, s.tm = fin τ ∧ RI X d τ s.rest s.g

theorem RS.step (X : XInput dims g h v pts) {d : ℝ} (hs : Small X d) {goal : Nat} {s t : St XR} (R : RS X d s)
    (hgoal : dims.prod ≤ goal) (hst : Step (fin d) goal eikS s t) : RS X d t := by
  refine ⟨(R.ginv.step X.input hst).1, ?_⟩
  have hnd := hst.1
  rcases R.ri with ⟨h1, h2, _⟩ | ⟨τ, hτ, R'⟩
  · exact absurd ⟨h2, Or.inr h1⟩ hnd
  right
  obtain ⟨_, rfl⟩ := hst
  have hlt : ∀ x ∈ s.gamma, x < dims.prod := fun x hx => reach_lt (R.ginv.sound x hx).1
  unfold next
  split
  · next x rest hr =>
    rw [hr] at R'
    have hxN := hlt x (by rw [mem_gamma, hr]; simp)
    have hsh : s.g.shape = Shape.mk' dims := R'.low.map.shape.trans X.shape
    refine ⟨τ, ?_, ?_⟩
    · unfold GMM.visit
      split
      · dsimp only
        rw [(relax2s_spec eikS (N := dims.prod) (s.g.shape.nbrs x) s (fun j hj => nbr_lt X.fits hxN (by rw [hsh] at hj; exact hj))).2.2.2.2.2.2.2.1]
        exact hτ
      · exact hτ
    · have e : (GMM.visit goal eikS s x rest).rest = rest := by
        unfold GMM.visit; split <;> rfl
      rw [e]
      exact R'.visit X hs hxN hτ goal
  · next hr =>
    rw [hr] at R'
    have htm : Arith.add s.tm (fin d) = fin (τ + d) := by rw [hτ]; rfl
    refine ⟨τ + d, htm, ?_⟩
    show RI X d (τ + d) s.gamma (pass1 eikS (Arith.add s.tm (fin d)) s.gamma s.g)
    rw [htm]
    have hopn : ∀ y, y < dims.prod → g.occ y = false → s.g.state y = .opn → tv s.g y = ⊤ := by
      intro y hy ho hop
      by_contra hne
      obtain ⟨z, hz, _⟩ := R'.i4 y hy ho hop hne
      simp at hz
    refine RI.pass1 X hs hlt ⟨R'.low, R'.rb.round hs ?_, ?_⟩
    · intro y hy ho hf hng
      have hop : s.g.state y = .opn := by
        cases e : s.g.state y with
        | opn => rfl
        | frozen => exact absurd e hf
        | narrow => exact absurd (R.ginv.nar y e) hng
      refine ⟨hopn y hy ho hop, ?_⟩
      intro j hj hjf
      exact R.ginv.closed (zeroOcc_xr g) j hjf y (nbrs_symm X.fits hy hj) ho hop
    · intro y hy ho hst hne
      exact absurd (hopn y hy ho hst) hne

/-- a local solver that uses at least the given values -/
theorem upd_upper_used {c : ℝ} (hc : 0 < c) {ι : Type} (l : List ι) (m m' : ι → WithTop ℝ) {Ti : WithTop ℝ} {Y : ℝ}
    (hm : ∀ k ∈ l, m' k = ⊤ ∨ (m k ≤ m' k ∧ m k < Ti)) (hY : c^2 ≤ residL Y (l.map m')) :
    upd c Ti (l.map m) ≤ ((Y + eps : ℝ) : WithTop ℝ) := by
  have hr : residL Y (l.map m') ≤ residR Y (usableT Ti (l.map m)) := by
    clear hY
    induction l with
    | nil => simp
    | cons k l ih =>
      have ih' := ih (fun k hk => hm k (by simp [hk]))
      rw [List.map_cons, List.map_cons, residL_cons]
      rcases hm k (by simp) with h1 | ⟨h1, h2⟩
      · rw [h1, posSq_top, zero_add]
        refine le_trans ih' ?_
        cases m k with
        | top => rw [usableT_cons_top]
        | coe r =>
          rw [usableT_cons_coe]; split
          · rw [residR_cons]; nlinarith [sq_nonneg (max (Y - r) 0)]
          · exact le_refl _
      · have h3 := posSq_anti Y h1
        cases hmk : m k with
        | top => rw [hmk] at h2; exact absurd h2 not_top_lt
        | coe r =>
          rw [hmk] at h2 h3
          rw [usableT_cons_coe, if_pos h2, residR_cons]
          rw [posSq_coe] at h3
          linarith
  have hr' := le_trans hY hr
  have hcc : (0:ℝ) < c^2 := by positivity
  have hne : usableT Ti (l.map m) ≠ [] := by
    intro h0; rw [h0] at hr'; simp at hr'; linarith
  obtain ⟨u, used, unused, h1, h2, h3, h4, h5, h6, _⟩ := eikR_spec hc hne
  have : upd c Ti (l.map m) = (u : WithTop ℝ) := h1
  rw [this]
  have : u ≤ Y + eps := by
    by_contra hcon
    have hlt : Y < u - eps := by linarith [not_le.1 hcon]
    rw [residR_perm Y h2, residR_append, residR_eq_zero (l := unused) (fun t ht => by linarith [h6 t ht]), add_zero] at hr'
    have := residR_lt_sqs hc (X := Y) (u := u) (by linarith [eps_pos]) h5 h4
    linarith
  exact_mod_cast this

/-- initialisation: what is needed beyond `Z0`; `todo` are the neighbours still to be treated -/
structure Y0 (X : XInput dims g h v pts) (todo : List Nat) (s : Grid XR × List Nat × XR) : Prop extends Z0 X s where
  fz0 : ∀ k, s.1.state k = .frozen → tv s.1 k = 0
  opn : ∀ k, s.1.state k = .opn → tv s.1 k = ⊤
  obs : ∀ k, g.occ k = true → s.1.state k ≠ .frozen → tv s.1 k = ⊤
  conv : ∀ y, y < dims.prod → g.occ y = false → s.1.state y ≠ .frozen → y ∉ todo → SCv X (XInput.Tf (tv s.1) s.1.state) y (tv s.1 y)

theorem Y0.nbr (X : XInput dims g h v pts) {todo : List Nat} {s : Grid XR × List Nat × XR} {p j : Nat} (Y : Y0 X (j :: todo) s) (hj : j < dims.prod)
    (hp : p ∈ (Shape.mk' dims).nbrs j) (hne : p ≠ j) (hz : tv s.1 p = 0) :
    Y0 X todo (initNbr eikS s j) ∧ tv (initNbr eikS s j).1 p = 0 := by
  obtain ⟨Z', hz', _⟩ := Y.toZ0.nbr X hj hp hne hz
  refine ⟨?_, hz'⟩
  by_cases hs : s.1.state j = .frozen ∨ s.1.occ j = true
  · have e : initNbr eikS s j = s := by unfold initNbr; rw [if_pos hs]
    rw [e] at Z' ⊢
    refine ⟨Z', Y.fz0, Y.opn, Y.obs, ?_⟩
    intro y hy ho hf hn
    by_cases ey : y = j
    · subst ey
      rcases hs with h1 | h1
      · exact absurd h1 hf
      · rw [SameMap.occ_eq Y.low.map, ho] at h1; cases h1
    · exact Y.conv y hy ho hf (by simp [ey, hn])
  · have hf : s.1.state j ≠ .frozen := fun e => hs (Or.inl e)
    have ho : s.1.occ j = false := by
      cases e : s.1.occ j with
      | false => rfl
      | true => exact absurd (Or.inr e) hs
    have ho' : g.occ j = false := by rw [← SameMap.occ_eq Y.low.map]; exact ho
    have hE := X.eik_eq Y.low.map Y.low.good hj ho'
    have est : ∀ k, (initNbr eikS s j).1.state k = if k = j then .narrow else s.1.state k := by
      intro k
      unfold initNbr; rw [if_neg hs]
      simp only [Grid.state_setState, Grid.state_setValue]
      rfl
    have ev : ∀ k, tv (initNbr eikS s j).1 k = if k = j then upd (h / v j) (tv s.1 j) (mins (Shape.mk' dims) (tv s.1) j) else tv s.1 k := by
      intro k
      unfold initNbr; rw [if_neg hs]
      unfold tv
      simp only [Grid.value_setState, Grid.value_setValue]
      split
      · rw [hE, toT_ofT]; rfl
      · rfl
    have hTf : XInput.Tf (tv (initNbr eikS s j).1) (initNbr eikS s j).1.state = XInput.Tf (tv s.1) s.1.state := by
      funext k
      unfold XInput.Tf
      rw [est, ev]
      by_cases e : k = j
      · rw [if_pos e, if_neg (by simp), e, if_neg hf]
      · rw [if_neg e, if_neg e]
    refine ⟨Z', ?_, ?_, ?_, ?_⟩
    · intro k hk
      rw [est] at hk
      rw [ev]
      by_cases e : k = j
      · rw [if_pos e] at hk; cases hk
      · rw [if_neg e] at hk ⊢; exact Y.fz0 k hk
    · intro k hk
      rw [est] at hk
      rw [ev]
      by_cases e : k = j
      · rw [if_pos e] at hk; cases hk
      · rw [if_neg e] at hk ⊢; exact Y.opn k hk
    · intro k hok hk
      rw [est] at hk
      rw [ev]
      by_cases e : k = j
      · rw [e, ho'] at hok; cases hok
      · rw [if_neg e] at hk ⊢; exact Y.obs k hok hk
    · intro y hy hoy hfy hn
      rw [hTf, ev]
      by_cases e : y = j
      · subst e
        rw [if_pos rfl]
        intro W hW
        refine upd_upper_used (X.cpos hy hoy) (List.range (Shape.mk' dims).ndims) (dimMin (Shape.mk' dims) (tv s.1) y)
          (dimMin (Shape.mk' dims) (XInput.Tf (tv s.1) s.1.state) y) ?_ hW
        intro k hk
        by_cases ht : dimMin (Shape.mk' dims) (XInput.Tf (tv s.1) s.1.state) y k = ⊤
        · exact Or.inl ht
        · right
          obtain ⟨i, hi, ei⟩ := dimMin_attained ht
          have hfi : s.1.state i = .frozen := by
            by_contra hc
            rw [ei] at ht
            unfold XInput.Tf at ht
            rw [if_neg hc] at ht
            exact ht rfl
          have h0 : tv s.1 i = 0 := Y.fz0 i hfi
          have hTi : XInput.Tf (tv s.1) s.1.state i = tv s.1 i := by unfold XInput.Tf; rw [if_pos hfi]
          have hle := dimMin_le (T := tv s.1) hi
          rw [ei, hTi]
          refine ⟨hle, lt_of_le_of_lt hle ?_⟩
          rw [h0]; exact Y.pos y hf
      · rw [if_neg e]
        rw [est, if_neg e] at hfy
        exact Y.conv y hy hoy hfy (by simp [e, hn])

theorem Y0.nbrs (X : XInput dims g h v pts) {p : Nat} : ∀ (ns : List Nat) (s : Grid XR × List Nat × XR),
    (∀ j ∈ ns, j < dims.prod ∧ p ∈ (Shape.mk' dims).nbrs j ∧ p ≠ j) → Y0 X ns s → tv s.1 p = 0 → Y0 X [] (ns.foldl (initNbr eikS) s) := by
  intro ns
  induction ns with
  | nil => intro s _ I _; exact I
  | cons j js ih =>
    intro s hN I hz
    obtain ⟨p1, p2, p3⟩ := hN j (by simp)
    obtain ⟨I', hz'⟩ := I.nbr X p1 p2 p3 hz
    rw [List.foldl_cons]
    exact ih _ (fun k hk => hN k (by simp [hk])) I' hz'

theorem Y0.points (X : XInput dims g h v pts) : ∀ (ps : List Nat) (s : Grid XR × List Nat × XR), (∀ p ∈ ps, p ∈ pts) → Y0 X [] s →
    Y0 X [] (ps.foldl (initPoint eikS) s) := by
  intro ps
  induction ps with
  | nil => intro s _ I; exact I
  | cons p ps ih =>
    intro s hps I
    rw [List.foldl_cons]
    refine ih _ (fun q hq => hps q (by simp [hq])) ?_
    have hp := hps p (by simp)
    have hpN := X.inside p hp
    have hsh : s.1.shape = Shape.mk' dims := I.low.map.shape.trans X.shape
    unfold initPoint
    rw [hsh]
    have est : ∀ k, ((s.1.setValue p Arith.zero).setState p .frozen).state k = if k = p then .frozen else s.1.state k := by
      intro k; simp only [Grid.state_setState, Grid.state_setValue]
    have ev : ∀ k, tv ((s.1.setValue p Arith.zero).setState p .frozen) k = if k = p then 0 else tv s.1 k := by
      intro k; unfold tv; simp only [Grid.value_setState, Grid.value_setValue]; split
      · rfl
      · rfl
    apply Y0.nbrs X (p := p)
    · intro j hj
      refine ⟨nbr_lt X.fits hpN hj, nbrs_symm X.fits hpN hj, ?_⟩
      rintro rfl
      exact nbrs_irrefl X.fits hpN hj
    · refine ⟨⟨⟨(LowG.prim X).state _ _ _ (lowG_zero X _ p hp I.low), ?_, ?_, I.tm⟩, ?_, ?_⟩, ?_, ?_, ?_, ?_⟩
      · intro x hx
        show tv ((s.1.setValue p Arith.zero).setState p .frozen) x ≠ ⊤
        rw [ev]; split
        · exact WithTop.coe_ne_top
        · exact I.fin x hx
      · intro k hk
        have hk : ((s.1.setValue p Arith.zero).setState p .frozen).state k ≠ .frozen := hk
        show 0 < tv ((s.1.setValue p Arith.zero).setState p .frozen) k
        rw [est] at hk; rw [ev]
        by_cases e : k = p
        · rw [if_pos e] at hk; exact absurd rfl hk
        · rw [if_neg e] at hk ⊢; exact I.pos k hk
      · intro k hk
        have hk : ((s.1.setValue p Arith.zero).setState p .frozen).state k = .frozen := hk
        rw [est] at hk
        by_cases e : k = p
        · rw [e]; exact hp
        · rw [if_neg e] at hk; exact I.frz k hk
      · intro k hk hv
        have hk : ((s.1.setValue p Arith.zero).setState p .frozen).state k ≠ .frozen := hk
        have hv : ((s.1.setValue p Arith.zero).setState p .frozen).value k ≠ pinf := hv
        show _ ≤ tv ((s.1.setValue p Arith.zero).setState p .frozen) k
        rw [est] at hk; rw [ev]
        by_cases e : k = p
        · rw [if_pos e] at hk; exact absurd rfl hk
        · rw [if_neg e] at hk ⊢
          simp only [Grid.value_setState, Grid.value_setValue] at hv
          rw [if_neg e] at hv
          exact I.nar k hk hv
      · intro k hk
        have hk : ((s.1.setValue p Arith.zero).setState p .frozen).state k = .frozen := hk
        show tv ((s.1.setValue p Arith.zero).setState p .frozen) k = 0
        rw [est] at hk; rw [ev]
        by_cases e : k = p
        · rw [if_pos e]
        · rw [if_neg e] at hk ⊢; exact I.fz0 k hk
      · intro k hk
        have hk : ((s.1.setValue p Arith.zero).setState p .frozen).state k = .opn := hk
        show tv ((s.1.setValue p Arith.zero).setState p .frozen) k = ⊤
        rw [est] at hk; rw [ev]
        by_cases e : k = p
        · rw [if_pos e] at hk; cases hk
        · rw [if_neg e] at hk ⊢; exact I.opn k hk
      · intro k ho hk
        have hk : ((s.1.setValue p Arith.zero).setState p .frozen).state k ≠ .frozen := hk
        show tv ((s.1.setValue p Arith.zero).setState p .frozen) k = ⊤
        rw [est] at hk; rw [ev]
        by_cases e : k = p
        · rw [if_pos e] at hk; exact absurd rfl hk
        · rw [if_neg e] at hk ⊢; exact I.obs k ho hk
      · intro y hy ho hf hn
        have hf : ((s.1.setValue p Arith.zero).setState p .frozen).state y ≠ .frozen := hf
        show SCv X (XInput.Tf (tv ((s.1.setValue p Arith.zero).setState p .frozen)) ((s.1.setValue p Arith.zero).setState p .frozen).state) y
          (tv ((s.1.setValue p Arith.zero).setState p .frozen) y)
        rw [est] at hf; rw [ev]
        by_cases e : y = p
        · rw [if_pos e] at hf; exact absurd rfl hf
        · rw [if_neg e] at hf ⊢
          refine (I.conv y hy ho hf (by simp)).mono ?_ (le_refl _)
          intro j hj
          have hjp : j ≠ p := by
            rintro rfl
            exact hn (nbrs_symm X.fits hy hj)
          unfold XInput.Tf
          rw [est, ev, if_neg hjp, if_neg hjp]
    · rw [ev, if_pos rfl]

theorem scv_top (X : XInput dims g h v pts) {T : Nat → WithTop ℝ} {y : Nat} (hy : y < dims.prod) (ho : g.occ y = false)
    (hT : ∀ j ∈ (Shape.mk' dims).nbrs y, T j = ⊤) (t : WithTop ℝ) : SCv X T y t := by
  intro Y hY
  exfalso
  have := X.csq hy ho
  obtain ⟨r, hr, _⟩ := residL_pos_lt (lt_of_lt_of_le this hY)
  obtain ⟨j, hj, e⟩ := XInput.mem_mins hr WithTop.coe_ne_top
  rw [hT j hj] at e
  exact WithTop.coe_ne_top e

theorem RS.start (X : XInput dims g h v pts) (hfr : Fresh g) {d : ℝ} (hs : Small X d) : RS X d (init eikS g [] pts) := by
  have Z := Z0.start X hfr
  have Y : Y0 X [] (pts.foldl (initPoint eikS) (g, [], Arith.inf)) := by
    apply Y0.points X _ _ (fun p hp => hp)
    have hT : ∀ k, tv g k = ⊤ := fun k => by unfold tv; rw [hfr.value]; rfl
    refine ⟨Z, ?_, fun k _ => hT k, fun k _ _ => hT k, ?_⟩
    · intro k hk
      have hk : g.state k = .frozen := hk
      rw [hfr.state] at hk; cases hk
    · intro y hy ho _ _
      apply scv_top X hy ho
      intro j _
      unfold XInput.Tf
      split
      · exact hT j
      · rfl
  have hgam : (init eikS g [] pts).gamma = (pts.foldl (initPoint eikS) (g, [], Arith.inf)).2.1 := by
    unfold init St.gamma; simp
  refine ⟨GInv.start eikS X.input hfr.state, ?_⟩
  set s := pts.foldl (initPoint eikS) (g, [], Arith.inf) with hsd
  have hg : (init eikS g [] pts).g = s.1 := rfl
  have hrest : (init eikS g [] pts).rest = [] := rfl
  have htm : (init eikS g [] pts).tm = s.2.2 := rfl
  rw [hg, hrest, htm, hgam]
  -- the invariant for every `τ` below all times of unfrozen cells
  have key : ∀ τ : ℝ, (∀ y, s.1.state y ≠ .frozen → (τ : WithTop ℝ) ≤ tv s.1 y) → RI X d τ [] s.1 := by
    intro τ hτ
    have hkap : kap dims.length d = Real.sqrt dims.length * (d + eps) + eps := rfl
    have hbz : bz dims.length d τ = τ - d - kap dims.length d - eps := rfl
    have hq : 0 ≤ Real.sqrt dims.length * (d + eps) := mul_nonneg (Real.sqrt_nonneg _) (by linarith [hs.pos, eps_pos])
    have hle : ∀ r : ℝ, r ≤ τ → ∀ y, s.1.state y ≠ .frozen → (r : WithTop ℝ) ≤ tv s.1 y := by
      intro r hr y hy
      refine le_trans ?_ (hτ y hy)
      exact_mod_cast hr
    have htr : ∀ z, XInput.Tf (tv s.1) s.1.state z ≤ trunc (bz dims.length d τ) (tv s.1) z := by
      intro z
      unfold XInput.Tf trunc
      split
      · split
        · exact le_refl _
        · exact le_top
      · next hf => rw [if_neg (not_lt.2 (hle _ (by linarith [hs.pos, eps_pos]) z hf))]
    refine ⟨Y.low, ⟨fun y _ => Y.obs y, fun y _ => hle _ (by linarith [hs.pos, eps_pos]) y,
      fun y h1 h2 h3 => Y.conv y h1 h2 h3 (by simp), ?_, ?_, ?_⟩, ?_⟩
    · intro y h1 h2 h3
      exact (Y.conv y h1 h2 h3 (by simp)).mono (fun j _ => htr j) (hle _ (by linarith [hs.pos, eps_pos]) y h3)
    · intro y h1 h2 h3 _
      exact ⟨(Y.conv y h1 h2 h3 (by simp)).mono (fun j _ => htr j) (hτ y h3), hle _ (by linarith [hs.pos, eps_pos]) y h3⟩
    · intro y _ _ hf hp
      exact absurd (Y.frz y hf) hp
    · intro y _ _ hop hne
      exact absurd (Y.opn y hop) hne
  rcases Y.tm with ⟨h1, h2⟩ | ⟨m, hm, h1⟩
  · left
    refine ⟨h2, rfl, 0, key 0 ?_⟩
    intro y hy
    exact (Y.pos y hy).le
  · right
    refine ⟨m, h1, key m ?_⟩
    intro y hy
    by_cases e : s.1.value y = pinf
    · unfold tv; rw [e]; exact le_top
    · have := Y.nar y hy e
      rw [h1] at this
      exact this

/-- **C61** (part): GMM without goal and with a step so small that `√n·(step + margin)` is at most the time needed to cross any free cell (`h / v i`; `n` dimensions): when
it stops, no time is below the exact one and every time is at most the exact one times `1 + 2·n·λ/c`, where `c` is any lower bound of the crossing times and
`λ = step + √n·(step + margin) + 2·margin`. The default step `1 / (greatest speed)` of the code does not satisfy the condition, and for it the bound is false
(`C61_GMM_far_off`). -/
theorem _root_.FMV.C61_small_step_partial (X : XInput dims g h v pts) (hfr : Fresh g) (U : Nat → WithTop ℝ) (hU : X.problem.IsSolution U)
    (d c : ℝ) (hd : 0 < d) (hc : 0 < c) (hcm : ∀ i, i < dims.prod → g.occ i = false → c ≤ h / v i)
    (hsmall : ∀ i, i < dims.prod → g.occ i = false → Real.sqrt dims.length * (d + eps) ≤ h / v i)
    (goal : Nat) (hgoal : dims.prod ≤ goal) (n : Nat) (s : St XR) (hs : Steps (Step (fin d) goal eikS) n (init eikS g [] pts) s) (hdone : Done s)
    (i : Nat) (hi : i < dims.prod) :
    U i ≤ toT (s.g.value i) ∧
    toT (s.g.value i) ≤ scl (1 + 2 * dims.length * (d + Real.sqrt dims.length * (d + eps) + 2 * eps) / c) (U i) := by
  have hS : Small X d := ⟨hd, hsmall⟩
  have R : RS X d s := Steps.inv (I := fun s : St XR => RS X d s) (fun _ _ h hst => h.step X hS hgoal hst) hs (RS.start X hfr hS)
  have hend := C49_GMM_no_goal_ends_empty _ goal _ dims g pts X.input hfr.state hgoal n s hs hdone
  refine ⟨(C18_GMM X hfr U hU _ goal n s hs i hi).2, ?_⟩
  have hR : ∃ τ, RI X d τ [] s.g := by
    rcases R.ri with ⟨_, _, h3⟩ | ⟨τ, _, h3⟩
    · exact h3
    · exact ⟨τ, by rw [hdone.1] at h3; exact h3⟩
  obtain ⟨τ, RR⟩ := hR
  have hlam : d + Real.sqrt dims.length * (d + eps) + 2 * eps = d + kap dims.length d + eps := by unfold kap; ring
  have hnn : 0 ≤ d + kap dims.length d + eps := by
    unfold kap
    have := mul_nonneg (Real.sqrt_nonneg (dims.length : ℝ)) (show 0 ≤ d + eps by linarith [eps_pos])
    linarith [eps_pos]
  rw [hlam]
  refine X.accuracy_rel hU (T := tv s.g) hnn hc hcm ?_ ?_ i hi
  · intro p hp
    unfold tv
    rw [(R.ginv.zero p hp).2]; exact le_refl _
  · intro y hy ho hp
    by_cases hf : s.g.state y = .frozen
    · exact RR.rb.conv hS hy ho hf hp
    · have hop : s.g.state y = .opn := by
        cases e : s.g.state y with
        | opn => rfl
        | frozen => exact absurd e hf
        | narrow => have := R.ginv.nar y e; rw [hend] at this; cases this
      -- an OPEN cell has no frozen neighbour, and all unfrozen free cells are OPEN with time infinity
      have hall : ∀ j ∈ (Shape.mk' dims).nbrs y, tv s.g j = ⊤ := by
        intro j hj
        have hjN := nbr_lt X.fits hy hj
        by_cases hjf : s.g.state j = .frozen
        · exact absurd hop (R.ginv.closed (zeroOcc_xr g) j hjf y (nbrs_symm X.fits hy hj) ho)
        · cases hjo : g.occ j with
          | true => exact RR.rb.obs j hjN hjo hjf
          | false =>
            have hjop : s.g.state j = .opn := by
              cases e : s.g.state j with
              | opn => rfl
              | frozen => exact absurd e hjf
              | narrow => have := R.ginv.nar j e; rw [hend] at this; cases this
            by_contra hne
            obtain ⟨z, hz, _⟩ := RR.i4 j hjN hjo hjop hne
            cases hz
      intro Y hY
      exact absurd (scv_top X hy ho hall (⊤ : WithTop ℝ) Y hY) (by simp)

/-- non-vacuity: step 1/4 on a map of two speeds; the exact solution exists, GMM stops, and its times exceed the exact ones by less than the factor 4 -/
example : ∃ (U : Nat → WithTop ℝ) (n : Nat) (s : St XR), ex10_input.problem.IsSolution U ∧
    Steps (Step (fin (1/4)) noGoal eikS) n (init eikS ex10 [] [0]) s ∧ Done s ∧
    ∀ i, i < 4 → U i ≤ toT (s.g.value i) ∧ toT (s.g.value i) ≤ scl 4 (U i) := by
  obtain ⟨U, hU, hnn, _⟩ := C17_unique_solution ex10_input.problem ex10_input.wellPosed
  obtain ⟨n, s, hs, hdn, _⟩ := C49_GMM_total ex10_input ex10_fresh noGoal (by decide) (1/4) (by norm_num)
  have heps : eps < 1/1000 := by unfold eps; norm_num
  have hsq : Real.sqrt 2 < 3/2 := by
    rw [Real.sqrt_lt' (by norm_num)]; norm_num
  have hcm : ∀ i, (1:ℝ) ≤ 1 / (if i = 3 then (1/10 : ℝ) else 1) := by
    intro i; split <;> norm_num
  have hsm : Real.sqrt ((2:ℕ):ℝ) * (1/4 + eps) ≤ 1 := by
    push_cast
    nlinarith [Real.sqrt_nonneg 2, eps_pos]
  refine ⟨U, n, s, hU, hs, hdn, ?_⟩
  intro i hi
  obtain ⟨a, b⟩ := C61_small_step_partial ex10_input ex10_fresh U hU (1/4) 1 (by norm_num) one_pos (fun i _ _ => hcm i)
    (fun i _ _ => le_trans hsm (hcm i)) noGoal (by decide) n s hs hdn i hi
  refine ⟨a, le_trans b ?_⟩
  have hlen : (([2,2] : List Nat).length : ℝ) = 2 := by norm_num
  rw [hlen]
  have hU0 := hnn i hi
  cases hUi : U i with
  | top => simp
  | coe r =>
    rw [hUi] at hU0
    have hr : 0 ≤ r := by exact_mod_cast hU0
    rw [scl_coe, scl_coe]
    have : 1 + 2 * 2 * (1/4 + Real.sqrt 2 * (1/4 + eps) + 2 * eps) / 1 ≤ 4 := by
      nlinarith [Real.sqrt_nonneg 2, eps_pos]
    exact_mod_cast mul_le_mul_of_nonneg_right this hr

end GMM
end FMV
