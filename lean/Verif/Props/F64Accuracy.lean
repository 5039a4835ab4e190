import Verif.Lemmas.F64Improve
import Verif.Spec.Distance
import Verif.Props.FSM
import Verif.Props.DDQM
import Verif.Props.WellPosed
import Mathlib.Data.Fintype.EquivFin
/-!
# C59: accuracy in 64-bit doubles

Every rounding of every operation of `solveEikonal`, of `isTimeBetterThan` and of `getTotalValue` is modelled; `R` is any monotone rounding to the
doubles that is exact on doubles.
-/
set_option linter.unusedSectionVars false
set_option linter.unusedVariables false
namespace FMV
open Spec Shape XR FMM
variable {R : Rounding}

namespace XInput
variable {dims : List Nat} {g : Grid XR} {h : ℝ} {v : Nat → ℝ} {pts : List Nat}

theorem hops_iff (X : XInput dims g h v pts) {d i : Nat} :
    X.Hops d i ↔ ReachIn dims (Shape.mk' dims).idx2coord (fun j => g.occ j = false) (fun j => j ∈ pts) d i := by
  constructor
  · intro hh
    induction hh with
    | start hi => exact .start hi (X.inside _ hi)
    | move h1 h2 h3 ih =>
      obtain ⟨a, b⟩ := (axisAdjacent_iff X.fits h1.lt).1 h2
      exact .move ih a h3 b
  · intro hh
    induction hh with
    | start hi _ => exact .start hi
    | move h1 h2 h3 h4 ih => exact .move ih ((axisAdjacent_iff X.fits ih.lt).2 ⟨h2, h4⟩) h3

/-- a cell at distance `d` has cells at every smaller distance behind it -/
theorem hops_all (X : XInput dims g h v pts) {d i : Nat} (hh : X.Hops d i) (hmin : ∀ d' < d, ¬ X.Hops d' i) :
    ∀ k ≤ d, ∃ j, j < dims.prod ∧ X.Hops k j ∧ ∀ k' < k, ¬ X.Hops k' j := by
  induction hh with
  | @start i hi =>
    intro k hk
    obtain rfl : k = 0 := by omega
    exact ⟨i, X.inside i hi, .start hi, by omega⟩
  | @move d i j h1 h2 h3 ih =>
    intro k hk
    rcases Nat.lt_or_ge d k with hlt | hle
    · obtain rfl : k = d + 1 := by omega
      exact ⟨j, (Hops.move h1 h2 h3).lt, .move h1 h2 h3, hmin⟩
    · refine ih ?_ k hle
      intro d' hd' hc
      exact hmin (d' + 1) (by omega) (.move hc h2 h3)

/-- shortest ways have fewer moves than there are cells -/
theorem hops_lt (X : XInput dims g h v pts) {i : Nat} (hh : ∃ d, X.Hops d i) : ∃ d, d < dims.prod ∧ X.Hops d i := by
  classical
  refine ⟨Nat.find hh, ?_, Nat.find_spec hh⟩
  have H := X.hops_all (Nat.find_spec hh) (fun d' hd' => Nat.find_min hh hd')
  set d := Nat.find hh
  choose f hf using fun k : Fin (d+1) => H k (by omega)
  have hinj : Function.Injective (fun k : Fin (d+1) => (⟨f k, (hf k).1⟩ : Fin dims.prod)) := by
    intro a b e
    have e' : f a = f b := by simpa using e
    rcases lt_trichotomy a.1 b.1 with h1 | h1 | h1
    · exact absurd (by rw [← e']; exact (hf a).2.1) ((hf b).2.2 a.1 h1)
    · exact Fin.ext h1
    · exact absurd (by rw [e']; exact (hf b).2.1) ((hf a).2.2 b.1 h1)
  have := Fintype.card_le_of_injective _ hinj
  simp at this
  omega

end XInput

/-- every cell connected to an initial point is connected to one by at most `K` moves -/
def Within (dims : List Nat) (g : Grid (F64 R)) (pts : List Nat) (K : Nat) : Prop :=
  ∀ i, reach dims g pts i → ∃ d, d ≤ K ∧ ReachIn dims (Shape.mk' dims).idx2coord (fun j => g.occ j = false) (fun j => j ∈ pts) d i

namespace DInput
variable {dims : List Nat} {g : Grid (F64 R)} {h : ℝ} {v : Nat → ℝ} {pts : List Nat} {cm cM A : ℝ}

theorem hops_reach (I : DInput dims g h v pts cm cM A) {d i : Nat} (hh : I.X.Hops d i) : reach dims g pts i := by
  induction hh with
  | start hi => exact .start hi (I.X.inside _ hi)
  | move h1 h2 h3 ih =>
    obtain ⟨a, b⟩ := (axisAdjacent_iff I.X.fits h1.lt).1 h2
    exact .move ih a h3 b

/-- the number of cells always bounds the number of moves -/
theorem within_cells (X : XInput dims (gridX g) h v pts) : Within dims g pts (dims.prod - 1) := by
  intro i hi
  have : ∃ d, X.Hops d i := by
    induction hi with
    | start h1 _ => exact ⟨0, .start h1⟩
    | move _ h2 h3 h4 ih =>
      obtain ⟨d, hd⟩ := ih
      exact ⟨d + 1, .move hd ((axisAdjacent_iff X.fits hd.lt).2 ⟨h2, h4⟩) h3⟩
  obtain ⟨d, h1, h2⟩ := X.hops_lt this
  exact ⟨d, by omega, X.hops_iff.1 h2⟩

theorem par (I : DInput dims g h v pts cm cM A) (hcc : cm ≤ cM) {K : Nat} (hK : Within dims g pts K) : I.X.Par I.θ I.β (2 * cM) K where
  θ0 := I.θ_nonneg
  β0 := I.β_pos.le
  w0 := by have := I.cm0; linarith
  θc := by
    intro i hi ho
    have := I.lo i hi ho
    have := I.θ_small
    have := I.cm0
    have := I.θ_nonneg
    linarith
  cw := by
    intro i hi ho
    have := I.hi i hi ho
    have := I.β_small
    linarith [I.β_pos]
  hops := by
    rintro i ⟨d, hd⟩
    obtain ⟨e, h1, h2⟩ := hK i (I.hops_reach hd)
    exact ⟨e, h1, I.X.hops_iff.2 h2⟩

/-! ### FMM: lower bound -/

theorem low_relax (I : DInput dims g h v pts cm cM A) {U : Nat → WithTop ℝ} (hU : I.X.problem.IsSolution U) {cfg : Cfg (F64 R)} {s : St (F64 R)}
    (hm : SameMap g s.g) (hg : GoodG (gridX s.g)) (hA : ∀ i (r : ℝ), tf s.g i = (r : WithTop ℝ) → r ≤ A)
    (hL : ∀ j, j < dims.prod → scl I.lowF (U j) ≤ tf s.g j) {j : Nat} (hj : j < dims.prod) :
    ∀ k, k < dims.prod → scl I.lowF (U k) ≤ tf (FMM.relax cfg eikS s j).g k := by
  have hocc : s.g.occ j = g.occ j := SameMap.occ_eq hm j
  have hlow : s.g.occ j = false → scl I.lowF (U j) ≤ toT (eikS s.g j).1.1 := by
    intro ho
    rw [hocc] at ho
    exact I.eik_low hU hL hj ho (I.eik hm hg hA hj ho).2
  intro k hk
  rcases relax_cases cfg eikS s j with ⟨hsk, e⟩ | ⟨ho, hn, hb, e⟩ | ⟨ho, hn, hb, e⟩ | ⟨ho, hn, e⟩ <;> rw [e]
  · exact hL k hk
  · rw [tf_eq, Grid.value_setValue]; split
    · next hkj => rw [hkj]; exact hlow ho
    · rw [applyHeur_value]; exact hL k hk
  · rw [tf_eq, applyHeur_value]; exact hL k hk
  · rw [tf_eq, Grid.value_setValue]; split
    · next hkj => rw [hkj]; exact hlow ho
    · rw [Grid.value_setState, applyHeur_value]; exact hL k hk

theorem low_fold (I : DInput dims g h v pts cm cM A) {w : ℝ} {L : Nat} (P : I.X.Par I.θ I.β w L) (hwA : w * (L + 1) ≤ A) (hna : I.X.NonAdj)
    {U : Nat → WithTop ℝ} (hU : I.X.problem.IsSolution U) {cfg : Cfg (F64 R)}
    (hcfg : cfg.heur = .none) {x : Nat} : ∀ (l : List Nat) (s : St (F64 R)), l.Nodup → (∀ j ∈ l, j ∈ (Shape.mk' dims).nbrs x) → I.FMid w L x l s →
    (∀ j, j < dims.prod → scl I.lowF (U j) ≤ tf s.g j) →
    ∀ j, j < dims.prod → scl I.lowF (U j) ≤ tf (l.foldl (FMM.relax cfg eikS) s).g j := by
  intro l
  induction l with
  | nil => intro s _ _ _ hL; exact hL
  | cons j l ih =>
    intro s hnd hl m hL
    rw [List.nodup_cons] at hnd
    rw [List.foldl_cons]
    have hj := hl j (by simp)
    have hjN : j < dims.prod := FMM.nbr_lt I.X.fits (m.q.fzN x m.q.fx) hj
    exact ih _ hnd.2 (fun k hk => hl k (by simp [hk])) (FMid.relax I P hwA hna hcfg m hj hnd.1)
      (I.low_relax hU m.map m.good (fun i r hr => le_trans (m.q.bnd i r hr) hwA) hL hjN)

theorem low_step (I : DInput dims g h v pts cm cM A) {w : ℝ} {L : Nat} (P : I.X.Par I.θ I.β w L) (hwA : w * (L + 1) ≤ A) (hna : I.X.NonAdj)
    {U : Nat → WithTop ℝ} (hU : I.X.problem.IsSolution U) {cfg : Cfg (F64 R)}
    (hcfg : cfg.heur = .none) {s t : St (F64 R)} (J : I.FInv w L s) (hL : ∀ j, j < dims.prod → scl I.lowF (U j) ≤ tf s.g j) (hst : StepMin cfg s t) :
    ∀ j, j < dims.prod → scl I.lowF (U j) ≤ tf t.g j := by
  obtain ⟨_, x, ⟨hx, hmin⟩, rfl⟩ := hst
  have hmin' : ∀ y ∈ s.heap, tf s.g x ≤ tf s.g y := by
    intro y hy
    have h1 : Arith.lt ((s.g.cells y).total).1 ((s.g.cells x).total).1 = false := hmin y hy
    rw [total64 J.hz J.good, total64 J.hz J.good] at h1
    by_contra hlt
    have h2 := (lt_ofT (tf s.g y) (tf s.g x)).2 (not_le.1 hlt)
    unfold tf tv at h2
    rw [(J.good y).ofT_toT, (J.good x).ofT_toT, gridX_value, gridX_value, h1] at h2
    cases h2
  have m := J.q.pop I.X P hx hmin'
  have e1 : tf (popped s x).g = tf s.g := by funext k; unfold tf tv; simp [popped]
  have m0 : I.FMid w L x ((Shape.mk' dims).nbrs x) (popped s x) := by
    refine ⟨J.map.trans (popped_sameMap s x), ?_, hz_setState J.hz _ _, ?_⟩
    · intro k; simp only [popped, gridX_value, Grid.value_setState]; exact J.good k
    · have e2 : (popped s x).g.state = fun k => if k = x then .frozen else s.g.state k := by
        funext k; simp [popped, Grid.state_setState]
      rw [e1, e2]
      exact m
  have m1 := I.low_fold P hwA hna hU hcfg _ _ (nbrs_nodup I.X.fits (J.q.heapN x hx)) (fun _ h => h) m0 (by rw [e1]; exact hL)
  have hsh : s.g.shape = Shape.mk' dims := J.map.shape.trans I.X.shape
  rw [← hsh] at m1
  rw [expand_eq]
  exact m1

theorem low_reach (I : DInput dims g h v pts cm cM A) {w : ℝ} {L : Nat} (P : I.X.Par I.θ I.β w L) (hwA : w * (L + 1) ≤ A) (hna : I.X.NonAdj) (hfr : Fresh g)
    {U : Nat → WithTop ℝ} (hU : I.X.problem.IsSolution U) {cfg : Cfg (F64 R)} (hcfg : cfg.heur = .none) {n : Nat} {s : St (F64 R)}
    (hs : Steps (StepMin cfg) n (FMM.init cfg g [] pts) s) : I.FInv w L s ∧ ∀ j, j < dims.prod → scl I.lowF (U j) ≤ tf s.g j := by
  refine Steps.inv (I := fun s => I.FInv w L s ∧ ∀ j, j < dims.prod → scl I.lowF (U j) ≤ tf s.g j) (r := StepMin cfg) ?_ hs ?_
  · rintro a b ⟨J, hL⟩ hst
    exact ⟨FInv.step I P hwA hna hcfg J hst, I.low_step P hwA hna hU hcfg J hL hst⟩
  · refine ⟨FInv.start I P hfr hcfg, ?_⟩
    intro k hk
    rw [tf_eq, init_value]
    split
    · next hp =>
      rw [((I.X.exSol hU) k hk).1 hp, scl_zero]
      exact le_refl _
    · rw [hfr.value]; exact le_top

/-! ### from the bounds to `RelClose` -/

theorem relErr_ge (I : DInput dims g h v pts cm cM A) :
    2 * dims.length * (I.θ + 2 * I.β) / cm ≤ relErr dims.length cm A ∧ I.θ / cm ≤ relErr dims.length cm A := by
  have hc := I.cm0
  have hA := I.Apos
  have hD := I.D2
  have hu := uu_pos
  have he := eps_pos
  have e0 : (100000 : ℝ) / 2^52 = eps := by unfold XR.eps; norm_num
  have e1 : (1 : ℝ) / 2^51 = uu := by unfold uu; norm_num
  have hE : I.e / cm = 70 * (dims.length:ℝ)^2 * uu * (A / cm)^2 := by
    unfold e F64.eerr; field_simp
  set D := (dims.length : ℝ) with hDd
  set q := uu * (A / cm)^2 with hq
  have hq0 : 0 ≤ q := by rw [hq]; positivity
  have hD3 : 0 ≤ D^3 * q := by positivity
  have hD4 : 2 * (D^3 * q) ≤ D^4 * q := by
    have := mul_le_mul_of_nonneg_right hD hD3
    calc 2 * (D^3 * q) ≤ D * (D^3 * q) := this
      _ = D^4 * q := by ring
  have hr : relErr dims.length cm A = 4 * D * (eps / cm) + 420 * (D^4 * q) := by
    unfold relErr; rw [e0, e1, ← hDd, hq]; ring
  have h1 : 2 * D * (I.θ + 2 * I.β) / cm = 4 * D * (eps / cm) + 280 * (D^4 * q) + 280 * (D^3 * q) := by
    unfold θ β
    have : 2 * D * (2 * ↑dims.length * I.e + 2 * (eps + I.e)) / cm = 4 * D * (eps / cm) + (4 * D^2 + 4 * D) * (I.e / cm) := by
      rw [← hDd]; ring
    rw [this, hE, hq]; ring
  have h2 : I.θ / cm = 140 * (D^3 * q) := by
    unfold θ
    have : 2 * ↑dims.length * I.e / cm = 2 * D * (I.e / cm) := by rw [← hDd]; ring
    rw [this, hE, hq]; ring
  have h3 : 0 ≤ 4 * D * (eps / cm) := by positivity
  rw [hr, h1, h2]
  constructor <;> linarith

theorem relClose (I : DInput dims g h v pts cm cM A) {U : Nat → WithTop ℝ} (hU : I.X.problem.IsSolution U) {x : XR} (hx : GoodT x) {i : Nat} (hi : i < dims.prod)
    (h1 : scl I.lowF (U i) ≤ toT x) (h2 : toT x ≤ scl (1 + 2 * dims.length * (I.θ + 2 * I.β) / cm) (U i)) :
    RelClose (relErr dims.length cm A) (U i) x := by
  have hnn := (I.X.exSol hU).nonneg I.X.fits (fun i hi _ ho => I.X.cpos hi (by simpa using ho)) i hi
  obtain ⟨b1, b2⟩ := I.relErr_ge
  cases hUi : U i with
  | top =>
    left
    refine ⟨rfl, ?_⟩
    rw [hUi, scl_top, top_le_iff] at h1
    rcases hx with hx | ⟨r, _, hx⟩
    · exact hx
    · rw [hx] at h1; exact absurd h1 WithTop.coe_ne_top
  | coe e =>
    right
    rw [hUi] at h1 h2 hnn
    have he : (0:ℝ) ≤ e := by exact_mod_cast hnn
    rcases hx with hx | ⟨r, hr, hx⟩
    · rw [hx, scl_coe] at h2
      exact absurd (top_le_iff.1 h2) WithTop.coe_ne_top
    · rw [hx] at h1 h2
      rw [scl_coe] at h1 h2
      have h3 : I.lowF * e ≤ r := WithTop.coe_le_coe.1 h1
      have h4 : r ≤ (1 + 2 * dims.length * (I.θ + 2 * I.β) / cm) * e := WithTop.coe_le_coe.1 h2
      refine ⟨e, r, rfl, hx, le_trans ?_ h3, le_trans h4 ?_⟩
      · apply mul_le_mul_of_nonneg_right _ he
        unfold lowF; linarith
      · apply mul_le_mul_of_nonneg_right _ he
        linarith

end DInput

section final
variable {dims : List Nat} {g : Grid (F64 R)} {h : ℝ} {v : Nat → ℝ} {pts : List Nat} {cm cM : ℝ}

/-- **C59** for FMM (and SFMM with an ordered queue): in 64-bit doubles, with every operation rounded, when the narrow band is empty every time is the
exact solution `U` of the discretised equation up to the relative error `relErr`, and `+inf` exactly where `U` is; no time is NaN. -/
theorem C59_FMM (K : Nat) (I : DInput dims g h v pts cm cM (2 * cM * (K + 1))) (hcc : cm ≤ cM) (hK : Within dims g pts K) (hfr : Fresh g)
    (ha : StartsApart dims g pts) (U : Nat → WithTop ℝ) (hU : I.X.problem.IsSolution U) (cfg : Cfg (F64 R)) (hcfg : cfg.heur = .none) (n : Nat)
    (s : St (F64 R)) (hs : Steps (StepMin cfg) n (FMM.init cfg g [] pts) s) (hend : s.heap = []) (i : Nat) (hi : i < dims.prod) :
    RelClose (relErr dims.length cm (2 * cM * (K + 1))) (U i) (s.g.value i).1 := by
  have P := I.par hcc hK
  have hna : I.X.NonAdj := by
    intro i hi ho j hj hjp
    exact ha i hi j hjp ho ((axisAdjacent_iff I.X.fits (I.X.inside i hi)).1 hj).2
  obtain ⟨J, hlow⟩ := I.low_reach P (le_refl _) hna hfr hU hcfg hs
  refine I.relClose hU (J.good i) hi (hlow i hi) ?_
  have A := J.q
  have hnn : ∀ k, s.g.state k ≠ .narrow := by
    intro k hk; have := (A.nar k hk).1; rw [hend] at this; simp at this
  have hfp : ∀ k ∈ pts, s.g.state k = .frozen := by
    intro k hk
    rcases (A.ini k hk).2 with h1 | h1
    · exact h1
    · rw [hend] at h1; simp at h1
  have hnf : ∀ k, s.g.state k ≠ .frozen → tf s.g k = ⊤ := by
    intro k hk
    cases hst : s.g.state k with
    | frozen => exact absurd hst hk
    | narrow => exact absurd hst (hnn k)
    | opn => exact A.opn k hst (fun hp => hk (hfp k hp))
  have hTf : XInput.Tf (tf s.g) s.g.state = tf s.g := by
    funext k; unfold XInput.Tf; split
    · rfl
    · next hk => exact (hnf k hk).symm
  have hθ := I.θ_nonneg
  have hβ := I.β_pos
  refine I.accurate (δ := I.θ + 2 * I.β) (by linarith) (le_refl _) hU (T := tf s.g) (fun k hk => le_of_eq (A.ini k hk).1) ?_ hi
  intro j hj ho hjp
  by_cases hjf : s.g.state j = .frozen
  · intro Y hY
    exact A.i2f j hjf hjp Y (by rw [hTf]; exact hY)
  · refine I.X.conv_lonely hj ho ?_
    intro k hk
    by_contra hne
    have hkf : s.g.state k = .frozen := by
      by_contra hh; exact hne (hnf k hh)
    rcases A.closed k j hkf (nbrs_symm I.X.fits hj hk) ho hjp with h1 | h1
    · exact hjf h1
    · exact hnn j h1

/-- **C59** for FMM without a bound on distances: the number of cells always works. -/
theorem C59_FMM_cells (I : DInput dims g h v pts cm cM (2 * cM * dims.prod)) (hcc : cm ≤ cM) (hfr : Fresh g)
    (ha : StartsApart dims g pts) (U : Nat → WithTop ℝ) (hU : I.X.problem.IsSolution U) (cfg : Cfg (F64 R)) (hcfg : cfg.heur = .none) (n : Nat)
    (s : St (F64 R)) (hs : Steps (StepMin cfg) n (FMM.init cfg g [] pts) s) (hend : s.heap = []) (i : Nat) (hi : i < dims.prod) :
    RelClose (relErr dims.length cm (2 * cM * dims.prod)) (U i) (s.g.value i).1 := by
  have e : (dims.prod : ℝ) = ((dims.prod - 1 : Nat) : ℝ) + 1 := by
    have : dims.prod = (dims.prod - 1) + 1 := by omega
    exact_mod_cast this
  have hw := DInput.within_cells I.X
  generalize hA : 2 * cM * (dims.prod : ℝ) = A at I
  rw [e] at hA
  subst hA
  exact C59_FMM (dims.prod - 1) I hcc hw hfr ha U hU cfg hcfg n s hs hend i hi

theorem DInput.wpos (I : DInput dims g h v pts cm cM (2 * cM * dims.prod)) (hcc : cm ≤ cM) : 0 ≤ 2 * cM := by have := I.cm0; linarith

theorem DInput.wok (I : DInput dims g h v pts cm cM (2 * cM * dims.prod)) (hcc : cm ≤ cM) :
    ∀ i, i < dims.prod → g.occ i = false → h / v i + I.β ≤ 2 * cM := by
  intro i hi ho
  have := I.hi i hi ho
  have := I.β_small
  have := I.β_pos
  linarith

theorem DInput.done (I : DInput dims g h v pts cm cM (2 * cM * dims.prod)) {g' : Grid (F64 R)} (J : I.TInv (2 * cM) g') {U : Nat → WithTop ℝ}
    (hU : I.X.problem.IsSolution U) (hc : ∀ i, i < dims.prod → g.occ i = false → i ∉ pts → I.X.Conv (tf g') (2 * I.β) i) {i : Nat} (hi : i < dims.prod) :
    RelClose (relErr dims.length cm (2 * cM * dims.prod)) (U i) (g'.value i).1 := by
  have hθ := I.θ_nonneg
  have hβ := I.β_pos
  exact I.relClose hU (J.good i) hi (J.low U hU i hi)
    (I.accurate (δ := 2 * I.β) (by linarith) (by linarith) hU (T := tf g') (fun k hk => le_of_eq (J.src k hk)) hc hi)

/-- **C59** for FSM: the same, when it has stopped without goal and within its sweep budget. -/
theorem C59_FSM (I : DInput dims g h v pts cm cM (2 * cM * dims.prod)) (hcc : cm ≤ cM) (hfr : Fresh g) (U : Nat → WithTop ℝ)
    (hU : I.X.problem.IsSolution U) (goal m sw : Nat) (hgoal : dims.prod ≤ goal) (incs : List Int) (hd : FSM.IsDirs dims.length incs) (n : Nat)
    (s : FSM.St (F64 R)) (hs : Steps (FSM.Step m (FSM.solveFSM goal eikS)) n (FSM.initFSM g pts sw incs) s) (hdone : FSM.Done m s)
    (hbud : s.sweeps < m) (i : Nat) (hi : i < dims.prod) : RelClose (relErr dims.length cm (2 * cM * dims.prod)) (U i) (s.g.value i).1 := by
  have S := FSM.solveFSM_solver (F := F64 R) goal eikS
  have hsh0 : (FSM.initFSM g pts sw incs).g.shape = Shape.mk' dims := (FSM.initFSM_sameMap g pts sw incs).shape.trans I.X.shape
  have J : I.TInv (2 * cM) s.g := by
    refine S.run_grid hs (dims_ne I.X.fits) hsh0 hd (J := I.TInv (2 * cM)) ?_ ?_
    · exact DInput.TInv.start I (I.wpos hcc) (FSM.initFSM_sameMap _ _ _ _) (fun k => by rw [FSM.initFSM_value, hfr.value]; split <;> rfl)
    · intro t k hk ht ho
      obtain ⟨b, hT, _⟩ := S.tried t k
      exact DInput.TInv.tried I (I.wpos hcc) (I.wok hcc) (le_refl _) ht hT hk (by rw [← SameMap.occ_eq ht.map]; exact ho)
  refine I.done J hU ?_ hi
  intro k hk ho _
  refine I.conv_of_reject (I.wpos hcc) (le_refl _) J hk ho ?_
  rw [eikS_eq_solve I.X.fits I.X.two (J.map.shape.trans I.X.shape) hk]
  exact C24_FSM_fixpoint goal m dims g pts ⟨I.X.fits, I.X.shape, I.X.inside⟩ I.X.two hgoal sw incs hd n s hs hdone hbud k hk ho

/-! ### LSM -/

theorem DInput.lsm_solve (I : DInput dims g h v pts cm cM (2 * cM * dims.prod)) (hcc : cm ≤ cM) (goal : Nat) {s : FSM.St (F64 R)} {i : Nat}
    (J : I.KInv64 (2 * cM) s.g) (hi : i < dims.prod) (ho : s.g.occ i = false) : I.KInv64 (2 * cM) (FSM.solveLSM goal eikS s i).g := by
  have hsh : s.g.shape = Shape.mk' dims := J.t.map.shape.trans I.X.shape
  rcases FSM.solveLSM_cases goal eikS s i with ⟨_, e⟩ | ⟨hopn, hb, e⟩ | ⟨hopn, hb, e, _⟩
  · rw [e]; exact J
  · refine DInput.KInv64.lockStep I (I.wpos hcc) (I.wok hcc) (le_refl _) (b := true) J hi ho ?_ ?_ (by simp)
    · obtain ⟨b, hT, hk⟩ := (FSM.solveLSM_solver goal eikS).tried s i
      cases b with
      | true => exact hT
      | false =>
        have := hT.no rfl
        refine ⟨hT.map, hT.other, ?_, by simp⟩
        intro _; refine ⟨hb, ?_⟩
        rw [e]; simp [Grid.value_setValue, FSM.unlock_value]
    · intro _ k _
      rw [e]
      show Grid.state (Grid.setState _ _ _) k = _
      rw [Grid.state_setState]
      by_cases hk : k = i
      · simp [hk]
      · rw [if_neg hk, if_neg hk, FSM.unlock_state, hsh]
        simp [Grid.value_setValue, hk]
  · refine DInput.KInv64.lockStep I (I.wpos hcc) (I.wok hcc) (le_refl _) (b := false) J hi ho ?_ (by simp) ?_
    · refine ⟨?_, ?_, by simp, ?_⟩
      · rw [e]; exact (sameMap_setScratch _ _).trans (sameMap_setState _ _ _)
      · intro k hk; rw [e]; simp
      · intro _; rw [e]; simp
    · intro _; refine ⟨hb, ?_⟩
      intro k _; rw [e]; simp [Grid.state_setState]

theorem DInput.lsm_start (I : DInput dims g h v pts cm cM (2 * cM * dims.prod)) (hcc : cm ≤ cM) (hfr : Fresh g) (sw : Nat) (incs : List Int) :
    I.KInv64 (2 * cM) (FSM.initLSM g pts sw incs).g := by
  have hS : I.TInv (2 * cM) (FSM.initLSM g pts sw incs).g :=
    DInput.TInv.start I (I.wpos hcc) (FSM.initLSM_sameMap _ _ _ _) (fun k => by rw [FSM.initLSM_value, hfr.value]; split <;> rfl)
  have hnc : g.shape.ncells = dims.prod := by
    have : g.shape = Shape.mk' dims := I.X.shape
    rw [this]; exact mk'_ncells (I.X.fits.mono (by norm_num))
  have hgs : g.shape = Shape.mk' dims := I.X.shape
  have hst : ∀ i, i < dims.prod → (FSM.initLSM g pts sw incs).g.state i = if ∃ p ∈ pts, i ∈ (Shape.mk' dims).nbrs p then .opn else .frozen := by
    intro i hi; rw [FSM.initLSM_state _ _ _ _ _ (by rw [hnc]; exact hi), hgs]
  have hβ := I.β_pos
  refine ⟨hS, ?_, ?_⟩
  · intro i hi; rw [hst i hi]; split
    · exact Or.inl rfl
    · exact Or.inr rfl
  · intro i hi ho hf
    rw [hst i hi] at hf
    split at hf
    · cases hf
    · next hc =>
      by_cases hp : i ∈ pts
      · exact I.X.conv_source (hS.nn I) (by linarith) hi ho (hS.src i hp)
      · apply I.X.conv_lonely hi ho
        intro j hj
        have hjp : j ∉ pts := fun hjp => hc ⟨j, hjp, nbrs_symm I.X.fits hi hj⟩
        rw [tf_eq, FSM.initLSM_value, if_neg hjp, hfr.value]; rfl

theorem DInput.lsm_run (I : DInput dims g h v pts cm cM (2 * cM * dims.prod)) (hcc : cm ≤ cM) (hfr : Fresh g) {goal m sw : Nat} {incs : List Int}
    (hd : FSM.IsDirs dims.length incs) {n : Nat} {s : FSM.St (F64 R)} (hs : Steps (FSM.Step m (FSM.solveLSM goal eikS)) n (FSM.initLSM g pts sw incs) s) :
    I.KInv64 (2 * cM) s.g := by
  refine (FSM.solveLSM_solver goal eikS).run_grid hs (dims_ne I.X.fits) ((FSM.initLSM_sameMap g pts sw incs).shape.trans I.X.shape) hd
    (J := I.KInv64 (2 * cM)) (I.lsm_start hcc hfr sw incs) ?_
  intro t i hi J ho
  exact I.lsm_solve hcc goal J hi ho

theorem DInput.lsm_locks (I : DInput dims g h v pts cm cM (2 * cM * dims.prod)) (hcc : cm ≤ cM) (goal : Nat) : ∀ (l : List Nat) (s : FSM.St (F64 R)),
    (∀ i ∈ l, i < dims.prod) → I.KInv64 (2 * cM) s.g → (l.foldl (FSM.visit (FSM.solveLSM goal eikS)) s).keep = false →
    s.keep = false ∧ (∀ k, s.g.state k = .frozen → (l.foldl (FSM.visit (FSM.solveLSM goal eikS)) s).g.state k = .frozen) ∧
    ∀ i ∈ l, g.occ i = false → (l.foldl (FSM.visit (FSM.solveLSM goal eikS)) s).g.state i = .frozen := by
  intro l
  induction l with
  | nil => intro s _ _ h; exact ⟨h, fun _ h => h, by simp⟩
  | cons i l ih =>
    intro s hl J hk
    rw [List.foldl_cons] at hk ⊢
    have hi := hl i (by simp)
    have hocc : s.g.occ i = g.occ i := SameMap.occ_eq J.t.map i
    rcases FSM.visit_cases (solve := FSM.solveLSM goal eikS) s i with ⟨ho, e⟩ | ⟨ho, e⟩
    · rw [e] at hk ⊢
      obtain ⟨h1, h2, h3⟩ := ih s (fun k hk => hl k (by simp [hk])) J hk
      refine ⟨h1, h2, ?_⟩
      intro j hj hjo
      rcases List.mem_cons.1 hj with rfl | hj
      · rw [hocc] at ho; rw [ho] at hjo; cases hjo
      · exact h3 j hj hjo
    · rw [e] at hk ⊢
      obtain ⟨h1, h2, h3⟩ := ih _ (fun k hk => hl k (by simp [hk])) (I.lsm_solve hcc goal J hi ho) hk
      rcases FSM.solveLSM_cases goal eikS s i with ⟨hn, e'⟩ | ⟨hopn, hb, e'⟩ | ⟨hopn, hb, e', _⟩
      · rw [e'] at h1 h2 h3 ⊢
        refine ⟨h1, h2, ?_⟩
        intro j hj hjo
        rcases List.mem_cons.1 hj with rfl | hj
        · apply h2
          rcases J.st j hi with h | h
          · exact absurd h hn
          · exact h
        · exact h3 j hj hjo
      · rw [e'] at h1; cases h1
      · have hst : ∀ k, (FSM.solveLSM goal eikS s i).g.state k = if k = i then .frozen else s.g.state k := by
          intro k; rw [e']; simp [Grid.state_setState]
        refine ⟨by rw [e'] at h1; exact h1, ?_, ?_⟩
        · intro k hkf
          apply h2
          rw [hst]; split
          · rfl
          · exact hkf
        · intro j hj hjo
          rcases List.mem_cons.1 hj with rfl | hj
          · apply h2; rw [hst, if_pos rfl]
          · exact h3 j hj hjo

/-- **C59** for LSM. -/
theorem C59_LSM (I : DInput dims g h v pts cm cM (2 * cM * dims.prod)) (hcc : cm ≤ cM) (hfr : Fresh g) (U : Nat → WithTop ℝ)
    (hU : I.X.problem.IsSolution U) (goal m sw : Nat) (hgoal : dims.prod ≤ goal) (incs : List Int) (hd : FSM.IsDirs dims.length incs) (n : Nat)
    (s : FSM.St (F64 R)) (hs : Steps (FSM.Step m (FSM.solveLSM goal eikS)) n (FSM.initLSM g pts sw incs) s) (hdone : FSM.Done m s)
    (hbud : s.sweeps < m) (i : Nat) (hi : i < dims.prod) : RelClose (relErr dims.length cm (2 * cM * dims.prod)) (U i) (s.g.value i).1 := by
  have S := FSM.solveLSM_solver (F := F64 R) goal eikS
  have hne := dims_ne I.X.fits
  have hsh0 : (FSM.initLSM g pts sw incs).g.shape = Shape.mk' dims := (FSM.initLSM_sameMap g pts sw incs).shape.trans I.X.shape
  have hstop := FSM.stop_false S (FSM.solveLSM_stop goal eikS) hne hgoal hsh0 hd hs rfl
  have hk : s.keep = false := by
    by_contra hc
    exact hdone ⟨by simpa using hc, hstop, hbud⟩
  have IF := I.lsm_run hcc hfr hd hs
  obtain ⟨n', u, hu, rfl⟩ := FSM.last_sweep hs rfl hk
  obtain ⟨hm, hsh, hdu⟩ := S.run_inv hu hsh0 hd
  have Iu := I.lsm_run hcc hfr hd hu
  rw [FSM.sweep_eq] at hk
  have hmem : ∀ k, k ∈ FSM.sweepOrder u.g.shape.dims (FSM.bump u.incs) ↔ k < dims.prod := by
    intro k; rw [hsh]; exact FSM.mem_sweepOrder hne (FSM.bump_isDirs hdu)
  obtain ⟨_, _, h3⟩ := I.lsm_locks hcc goal _ (FSM.begun u) (fun k hk => (hmem k).1 hk) Iu hk
  refine I.done IF.t hU ?_ hi
  intro k hk' ho _
  have hfz := h3 k ((hmem k).2 hk') ho
  rw [← FSM.sweep_eq] at hfz
  exact IF.lock k hk' ho hfz

/-! ### DDQM -/

/-- the invariant of DDQM in doubles -/
structure DInput.QKInv (I : DInput dims g h v pts cm cM (2 * cM * dims.prod)) (s : DDQM.St (F64 R)) : Prop where
  q : DDQM.QInv dims s
  lock : I.KInv64 (2 * cM) s.g
  opn : ∀ i, i < dims.prod → g.occ i = false → s.g.state i = .opn → DDQM.Queued s i

theorem DInput.QKInv.start (I : DInput dims g h v pts cm cM (2 * cM * dims.prod)) (hcc : cm ≤ cM) (hfr : Fresh g) (th ths : F64 R) :
    I.QKInv (DDQM.init g pts th ths) := by
  have hS : I.TInv (2 * cM) (DDQM.init g pts th ths).g :=
    DInput.TInv.start I (I.wpos hcc) (DDQM.init_sameMap _ _ _ _) (fun k => by rw [DDQM.init_value, hfr.value]; split <;> rfl)
  have hgs : g.shape = Shape.mk' dims := I.X.shape
  have hnc : g.shape.ncells = dims.prod := by rw [hgs]; exact mk'_ncells (I.X.fits.mono (by norm_num))
  have hst : ∀ i, i < dims.prod → (DDQM.init g pts th ths).g.state i =
      if (∃ p ∈ pts, i ∈ (Shape.mk' dims).nbrs p) ∧ g.occ i = false then .opn else .frozen := by
    intro i hi; rw [DDQM.init_state _ _ _ _ _ (by rw [hnc]; exact hi), hgs]
  have hβ := I.β_pos
  refine ⟨DDQM.QInv.start ⟨I.X.fits, hgs, I.X.inside⟩ th ths, ⟨hS, ?_, ?_⟩, ?_⟩
  · intro i hi; rw [hst i hi]; split
    · exact Or.inl rfl
    · exact Or.inr rfl
  · intro i hi ho hf
    rw [hst i hi] at hf
    split at hf
    · cases hf
    · next hc =>
      by_cases hp : i ∈ pts
      · exact I.X.conv_source (hS.nn I) (by linarith) hi ho (hS.src i hp)
      · apply I.X.conv_lonely hi ho
        intro j hj
        have hjp : j ∉ pts := fun hjp => hc ⟨⟨j, hjp, nbrs_symm I.X.fits hi hj⟩, ho⟩
        rw [tf_eq, DDQM.init_value, if_neg hjp, hfr.value]; rfl
  · intro i hi ho hopn
    rw [hst i hi] at hopn
    split at hopn
    · next hc => rw [DDQM.init_queued, hgs]; exact hc
    · cases hopn

theorem DInput.QKInv.step (I : DInput dims g h v pts cm cM (2 * cM * dims.prod)) (hcc : cm ≤ cM) {goal : Nat} {s t : DDQM.St (F64 R)} (J : I.QKInv s)
    (hst : DDQM.Step goal eikS s t) : I.QKInv t := by
  have hq := J.q.step I.X.fits hst
  rcases DDQM.step_cases hst with ⟨_, _, rfl⟩ | ⟨_, _, rfl⟩ | ⟨_, _, idx, rest, hl, ⟨hocc, rfl⟩ | ⟨c, hp⟩⟩
  · exact ⟨hq, J.lock, J.opn⟩
  · exact ⟨hq, J.lock, J.opn⟩
  · refine ⟨hq, by simpa using J.lock, ?_⟩
    intro i hi ho hopn
    simp only [DDQM.setLow_g] at hopn
    have := J.opn i hi ho hopn
    rw [DDQM.queued_pop hl] at this
    rcases this with rfl | h
    · rw [SameMap.occ_eq J.lock.t.map, ho] at hocc; cases hocc
    · exact h
  · have hi := J.q.inq idx (DDQM.low_queued hl)
    have hsh := J.q.shape
    refine ⟨hq, ?_, ?_⟩
    · refine DInput.KInv64.lockStep I (I.wpos hcc) (I.wok hcc) (le_refl _) J.lock hi hp.free hp.tried ?_ (fun hc => ⟨(hp.no hc).1, fun k _ => (hp.no hc).2 k⟩)
      intro hc k hk
      rw [(hp.yes hc).1 k]
      by_cases hki : k = idx
      · simp [hki]
      · rw [if_neg hki, if_neg hki, hp.tried.other k hki, hsh]
        rcases J.lock.st k hk with hs | hs
        · simp [hs]
        · simp [hs]
    · intro i hiN ho hopn
      by_cases hii : i = idx
      · subst hii
        cases c with
        | true => rw [(hp.yes rfl).1 i, if_pos rfl] at hopn; cases hopn
        | false => rw [(hp.no rfl).2 i, if_pos rfl] at hopn; cases hopn
      · cases c with
        | true =>
          rw [(hp.yes rfl).1 i, if_neg hii] at hopn
          split at hopn
          · next hcc => exact (hp.yes rfl).2 i hcc.1 hcc.2.1 hcc.2.2
          · rcases hp.queued i (J.opn i hiN ho hopn) with h | h
            · exact absurd h hii
            · exact h
        | false =>
          rw [(hp.no rfl).2 i, if_neg hii] at hopn
          rcases hp.queued i (J.opn i hiN ho hopn) with h | h
          · exact absurd h hii
          · exact h

/-- **C59** for DDQM, whatever its thresholds. -/
theorem C59_DDQM (I : DInput dims g h v pts cm cM (2 * cM * dims.prod)) (hcc : cm ≤ cM) (hfr : Fresh g) (U : Nat → WithTop ℝ)
    (hU : I.X.problem.IsSolution U) (goal : Nat) (hgoal : dims.prod ≤ goal) (th ths : F64 R) (n : Nat) (s : DDQM.St (F64 R))
    (hs : Steps (DDQM.Step goal eikS) n (DDQM.init g pts th ths) s) (hdone : DDQM.Done s) (i : Nat) (hi : i < dims.prod) :
    RelClose (relErr dims.length cm (2 * cM * dims.prod)) (U i) (s.g.value i).1 := by
  have hgs : g.shape = Shape.mk' dims := I.X.shape
  have J : I.QKInv s ∧ s.stop = false := by
    refine Steps.inv (I := fun s : DDQM.St (F64 R) => I.QKInv s ∧ s.stop = false) ?_ hs ⟨DInput.QKInv.start I hcc hfr th ths, rfl⟩
    rintro a b ⟨h2, h1⟩ hst
    refine ⟨h2.step I hcc hst, ?_⟩
    rcases DDQM.step_cases hst with ⟨_, _, rfl⟩ | ⟨_, _, rfl⟩ | ⟨_, _, idx, rest, hl, ⟨hocc, rfl⟩ | ⟨c, hp⟩⟩
    · exact h1
    · exact h1
    · simpa using h1
    · by_contra hc
      rcases hp.stop (by simpa using hc) with h | h
      · rw [h1] at h; cases h
      · have := h2.q.inq idx (DDQM.low_queued hl); omega
  obtain ⟨J, hstop⟩ := J
  have hemp : s.q0 = [] ∧ s.q1 = [] := by
    rcases hdone.2 with h | h
    · rw [hstop] at h; cases h
    · exact h
  refine I.done J.lock.t hU ?_ hi
  intro k hk ho _
  refine J.lock.lock k hk ho ?_
  rcases J.lock.st k hk with h | h
  · have := J.opn k hk ho h
    unfold DDQM.Queued at this
    rw [hemp.1, hemp.2] at this
    simp at this
  · exact h

/-! ### agreement -/

/-- `g'` is the grid left by a finished run in doubles on `g` from `pts`, without goal, of FMM without heuristics (starting points not adjacent), of
FSM or LSM within their sweep budget, or of DDQM with any thresholds. -/
inductive FinalGrid64 (dims : List Nat) (g : Grid (F64 R)) (pts : List Nat) : Grid (F64 R) → Prop
  | fmm {cfg n s} : cfg.heur = .none → StartsApart dims g pts →
      Steps (StepMin cfg) n (FMM.init cfg g [] pts) s → s.heap = [] → FinalGrid64 dims g pts s.g
  | fsm {goal m sw incs n s} : dims.prod ≤ goal → FSM.IsDirs dims.length incs →
      Steps (FSM.Step m (FSM.solveFSM goal eikS)) n (FSM.initFSM g pts sw incs) s → FSM.Done m s → s.sweeps < m → FinalGrid64 dims g pts s.g
  | lsm {goal m sw incs n s} : dims.prod ≤ goal → FSM.IsDirs dims.length incs →
      Steps (FSM.Step m (FSM.solveLSM goal eikS)) n (FSM.initLSM g pts sw incs) s → FSM.Done m s → s.sweeps < m → FinalGrid64 dims g pts s.g
  | ddqm {goal th ths n s} : dims.prod ≤ goal → Steps (DDQM.Step goal eikS) n (DDQM.init g pts th ths) s → DDQM.Done s →
      FinalGrid64 dims g pts s.g

/-- **C59**, all four solvers. -/
theorem C59_accuracy (I : DInput dims g h v pts cm cM (2 * cM * dims.prod)) (hcc : cm ≤ cM) (hfr : Fresh g) (a : Grid (F64 R))
    (ha : FinalGrid64 dims g pts a) (U : Nat → WithTop ℝ) (hU : I.X.problem.IsSolution U) (i : Nat) (hi : i < dims.prod) :
    RelClose (relErr dims.length cm (2 * cM * dims.prod)) (U i) (a.value i).1 := by
  cases ha with
  | fmm h1 h2 h3 h4 => exact C59_FMM_cells I hcc hfr h2 U hU _ h1 _ _ h3 h4 i hi
  | fsm h1 h2 h3 h4 h5 => exact C59_FSM I hcc hfr U hU _ _ _ h1 _ h2 _ _ h3 h4 h5 i hi
  | lsm h1 h2 h3 h4 h5 => exact C59_LSM I hcc hfr U hU _ _ _ h1 _ h2 _ _ h3 h4 h5 i hi
  | ddqm h1 h2 h3 => exact C59_DDQM I hcc hfr U hU _ h1 _ _ _ _ h2 h3 i hi

/-- **C59**: computed in doubles, the results of any two of FMM, FSM, LSM and DDQM are `+inf` in the same cells, and elsewhere both are within the
relative error `relErr` of one and the same number, the exact time. -/
theorem C59_solvers_agree (I : DInput dims g h v pts cm cM (2 * cM * dims.prod)) (hcc : cm ≤ cM) (hfr : Fresh g) (a b : Grid (F64 R))
    (ha : FinalGrid64 dims g pts a) (hb : FinalGrid64 dims g pts b) (i : Nat) (hi : i < dims.prod) :
    ((a.value i).1 = .pinf ∧ (b.value i).1 = .pinf) ∨
    ∃ e x y : ℝ, (a.value i).1 = .fin x ∧ (b.value i).1 = .fin y ∧ 0 ≤ e ∧ |x - e| ≤ relErr dims.length cm (2 * cM * dims.prod) * e ∧
      |y - e| ≤ relErr dims.length cm (2 * cM * dims.prod) * e := by
  obtain ⟨U, hU, hnn, _⟩ := C17_unique_solution I.X.problem I.X.wellPosed
  rcases C59_accuracy I hcc hfr a ha U hU i hi with ⟨h1, h2⟩ | ⟨e, x, h1, h2, h3, h4⟩
  · rcases C59_accuracy I hcc hfr b hb U hU i hi with ⟨k1, k2⟩ | ⟨e', y, k1, _⟩
    · exact Or.inl ⟨h2, k2⟩
    · rw [h1] at k1; exact absurd k1.symm WithTop.coe_ne_top
  · rcases C59_accuracy I hcc hfr b hb U hU i hi with ⟨k1, k2⟩ | ⟨e', y, k1, k2, k3, k4⟩
    · rw [k1] at h1; exact absurd h1.symm WithTop.coe_ne_top
    · rw [h1] at k1
      obtain rfl : e = e' := WithTop.coe_injective k1
      have he := hnn i hi
      rw [h1] at he
      refine Or.inr ⟨e, x, y, h2, k2, by exact_mod_cast he, ?_, ?_⟩ <;> rw [abs_le] <;> constructor <;> linarith

end final

/-- non-vacuity: rounding to nearest, a 3 x 3 grid of doubles with unit cells and speeds: the hypotheses hold, the four solvers end, the relative
error guaranteed is below `2e-8` -/
example : ∃ (g : Grid (F64 Rounding.nearest)), ∃ I : DInput [3,3] g 1 (fun _ => 1) [4] 1 1 (2 * 1 * (([3,3] : List Nat).prod : ℝ)), Fresh g ∧
    relErr 2 1 (2 * 1 * (([3,3] : List Nat).prod : ℝ)) < 2 / 10^8 ∧ (∃ U, I.X.problem.IsSolution U) ∧
    (∃ n s, Steps (StepMin ⟨false, .none, fun _ => Arith.zero, noGoal⟩) n (FMM.init ⟨false, .none, fun _ => Arith.zero, noGoal⟩ g [] [4]) s ∧
      FinalGrid64 [3,3] g [4] s.g) ∧
    (∃ n s, Steps (DDQM.Step noGoal eikS) n (DDQM.init g [4] Arith.one Arith.one) s ∧ FinalGrid64 [3,3] g [4] s.g) ∧
    (∃ n s, Steps (FSM.Step (2^32) (FSM.solveFSM noGoal eikS)) n (FSM.initFSM g [4] 0 (FSM.incs0 [3,3])) s ∧ FinalGrid64 [3,3] g [4] s.g) ∧
    (∃ n s, Steps (FSM.Step (2^32) (FSM.solveLSM noGoal eikS)) n (FSM.initLSM g [4] 0 (FSM.incs0 [3,3])) s ∧ FinalGrid64 [3,3] g [4] s.g) := by
  set g : Grid (F64 Rounding.nearest) := Grid.create [3,3] Arith.one (0,0) with hg
  have X : XInput [3,3] (gridX g) 1 (fun _ => 1) [4] :=
    ⟨⟨by decide, by decide, by decide⟩, by decide, rfl, by decide, one_pos, rfl, fun _ _ _ => rfl⟩
  have hin : Input [3,3] g [4] := ⟨X.fits, rfl, X.inside⟩
  have hfr : Fresh g := ⟨fun _ => rfl, fun _ => rfl, fun _ => rfl⟩
  have hap : StartsApart [3,3] g [4] := by
    intro i hi j hj _ hadj
    obtain ⟨k, h0, h1, h2, h3⟩ := hadj
    rw [List.mem_singleton] at hi hj
    subst hi; subst hj
    omega
  have hp : (([3,3] : List Nat).prod : ℝ) = 9 := by norm_num
  have I : DInput [3,3] g 1 (fun _ => 1) [4] 1 1 (2 * 1 * (([3,3] : List Nat).prod : ℝ)) := by
    have b1 : (2:ℝ)^(-200:ℤ) ≤ 1 := by
      have : (2:ℝ)^(-200:ℤ) ≤ (2:ℝ)^(0:ℤ) := zpow_le_zpow_right₀ (by norm_num) (by norm_num)
      simpa using this
    have b2 : (1:ℝ) ≤ (2:ℝ)^(200:ℤ) := by
      have : (2:ℝ)^(0:ℤ) ≤ (2:ℝ)^(200:ℤ) := zpow_le_zpow_right₀ (by norm_num) (by norm_num)
      simpa using this
    have b3 : (18:ℝ) ≤ (2:ℝ)^(300:ℤ) := by
      have : (2:ℝ)^(5:ℤ) ≤ (2:ℝ)^(300:ℤ) := zpow_le_zpow_right₀ (by norm_num) (by norm_num)
      refine le_trans ?_ this
      norm_num
    refine ⟨X, b1, b2, fun _ _ _ => b2, one_pos, fun _ _ _ => by norm_num, fun _ _ _ => by norm_num, ?_, ?_, ?_, ?_, ?_⟩
    · rw [hp]; norm_num
    · rw [hp]; norm_num
    · rw [hp]
      have : (2:ℝ) * 1 * 9 = 18 := by norm_num
      rw [this]; exact b3
    · rw [hp]; unfold uu; norm_num
    · unfold XR.eps; norm_num
  have hlt : ∀ {solve : FSM.St (F64 Rounding.nearest) → Nat → FSM.St (F64 Rounding.nearest)} (S : FSM.Solver eikS solve) {n : Nat}
      {s t : FSM.St (F64 Rounding.nearest)} (h0 : s.sweeps < 2^32), Steps (FSM.Step (2^32) solve) n s t → t.sweeps < 2^32 := by
    intro solve S n s t h0 hs
    refine Steps.inv (I := fun t : FSM.St (F64 Rounding.nearest) => t.sweeps < 2^32) ?_ hs h0
    rintro a b _ ⟨_, rfl⟩
    rw [S.sweep_sweeps]; exact Nat.mod_lt _ (by norm_num)
  obtain ⟨U, hU, _⟩ := C17_unique_solution X.problem X.wellPosed
  refine ⟨g, I, hfr, ?_, ⟨U, hU⟩, ?_, ?_, ?_, ?_⟩
  · unfold relErr; rw [hp]; norm_num
  · obtain ⟨n, s, _, hs, hd⟩ := C13_doubles Rounding.nearest ⟨false, .none, fun _ => Arith.zero, noGoal⟩ rfl [3,3] g [4] hin
    have he : s.heap = [] := C14_no_goal_ends_empty _ [3,3] g [4] hin (by decide) n s (hs.mono (fun _ _ => StepMin.any)) hd
    exact ⟨n, s, hs, .fmm rfl hap hs he⟩
  · obtain ⟨⟨n, s, hs, hd⟩, _⟩ := C27_doubles Rounding.nearest noGoal [3,3] g [4] hin Arith.one Arith.one
    exact ⟨n, s, hs, .ddqm (by decide) hs hd⟩
  · obtain ⟨⟨n, s, hs, hd⟩, _⟩ := C23_doubles Rounding.nearest noGoal (2^32) [3,3] g [4] hin 0 _ (FSM.incs0_isDirs [3,3])
    exact ⟨n, s, hs, .fsm (by decide) (FSM.incs0_isDirs [3,3]) hs hd (hlt (FSM.solveFSM_solver _ _) (show (0:Nat) < 2^32 by norm_num) hs)⟩
  · obtain ⟨⟨n, s, hs, hd⟩, _⟩ := C26_doubles Rounding.nearest noGoal (2^32) [3,3] g [4] hin 0 _ (FSM.incs0_isDirs [3,3])
    exact ⟨n, s, hs, .lsm (by decide) (FSM.incs0_isDirs [3,3]) hs hd (hlt (FSM.solveLSM_solver _ _) (show (0:Nat) < 2^32 by norm_num) hs)⟩
end FMV
