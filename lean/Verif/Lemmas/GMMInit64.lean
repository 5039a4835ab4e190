import Verif.Lemmas.GMMDoubles
/-! GMM in doubles with a small time step: the state after the initialisation (fm/gmm.hpp:61-82). -/
set_option linter.unusedSectionVars false
set_option linter.unusedVariables false
namespace FMV
open Spec Shape XR FMM
variable {R : Rounding}
namespace GMM64
open GMM
open GMMA (SCv Small bz kap)
variable {dims : List Nat} {g : Grid (F64 R)} {h : ℝ} {v : Nat → ℝ} {pts : List Nat} {cm cM A : ℝ}
variable {I : DInput dims g h v pts cm cM A} {w d τ : ℝ}

/-- invariant of the initialisation; `todo` are the neighbours of the current initial point still to be treated -/
structure Y64 (I : DInput dims g h v pts cm cM A) (w : ℝ) (todo : List Nat) (s : Grid (F64 R) × List Nat × F64 R) : Prop where
  low : I.LInv w 1 s.1
  fin : ∀ x ∈ s.2.1, tf s.1 x ≠ ⊤
  pos : ∀ k, s.1.state k ≠ .frozen → 0 < tf s.1 k
  tm : (s.2.2.1 = pinf ∧ s.2.1 = []) ∨ ∃ m : ℝ, 0 ≤ m ∧ m ≤ w ∧ s.2.2.1 = XR.fin m
  frz : ∀ k, s.1.state k = .frozen → k ∈ pts
  nar : ∀ k, s.1.state k ≠ .frozen → toT s.2.2.1 ≤ tf s.1 k
  fz0 : ∀ k, s.1.state k = .frozen → tf s.1 k = 0
  opn : ∀ k, s.1.state k = .opn → tf s.1 k = ⊤
  obs : ∀ k, g.occ k = true → s.1.state k ≠ .frozen → tf s.1 k = ⊤
  conv : ∀ y, y < dims.prod → g.occ y = false → s.1.state y ≠ .frozen → y ∉ todo → SCv I.X I.β (XInput.Tf (tf s.1) s.1.state) y (tf s.1 y)

theorem Ctx.wA (C : Ctx I w d) : w * ((1:Nat):ℝ) ≤ A := by
  refine le_trans (mul_le_mul_of_nonneg_left ?_ C.w0) C.hwA
  have : 1 ≤ dims.prod := by
    have : 0 < dims.prod := list_prod_pos I.X.fits.pos
    exact this
  exact_mod_cast this

theorem Y64.nbr (C : Ctx I w d) {todo : List Nat} {s : Grid (F64 R) × List Nat × F64 R} {p j : Nat} (Y : Y64 I w (j :: todo) s) (hj : j < dims.prod)
    (hp : p ∈ (Shape.mk' dims).nbrs j) (hne : p ≠ j) (hz : tf s.1 p = 0) :
    Y64 I w todo (initNbr eikS s j) ∧ tf (initNbr eikS s j).1 p = 0 := by
  by_cases hs : s.1.state j = .frozen ∨ s.1.occ j = true
  · have e : initNbr eikS s j = s := by unfold initNbr; rw [if_pos hs]
    rw [e]
    refine ⟨⟨Y.low, Y.fin, Y.pos, Y.tm, Y.frz, Y.nar, Y.fz0, Y.opn, Y.obs, ?_⟩, hz⟩
    intro y hy ho hf hn
    by_cases ey : y = j
    · subst ey
      rcases hs with h1 | h1
      · exact absurd h1 hf
      · rw [SameMap.occ_eq Y.low.map, ho] at h1; cases h1
    · exact Y.conv y hy ho hf (by simp [ey, hn])
  have hf : s.1.state j ≠ .frozen := fun e => hs (Or.inl e)
  have ho : s.1.occ j = false := by
    cases e : s.1.occ j with
    | false => rfl
    | true => exact absurd (Or.inr e) hs
  have ho' : g.occ j = false := by rw [← SameMap.occ_eq Y.low.map]; exact ho
  have hle := Y.low.le I C.wA
  obtain ⟨hgd, hap⟩ := I.eik Y.low.map Y.low.good hle hj ho'
  obtain ⟨_, _, hbd, hnear⟩ := Y.low.eik I C.hw C.wA hj ho'
  have hpos := Y.pos j hf
  have hnn : ∀ k, 0 ≤ tf s.1 k := fun k => (Y.low.good k).toT_nonneg
  have hup := hnear p hp 0 (by rw [hz]; rfl) hpos
  obtain ⟨u, hu⟩ := WithTop.ne_top_iff_exists.1 (ne_top_of_le_ne_top WithTop.coe_ne_top hup)
  have hE : (eikS s.1 j).1.1 = XR.fin u := by rw [← hgd.ofT_toT, ← hu]; rfl
  have hu0 : 0 < u := by
    have h1 := hap.lower u hu.symm
    have h2 : 0 < (h / v j - I.θ)^2 := by
      have := C.sm.cpos hj (show (gridX g).occ j = false from ho')
      positivity
    obtain ⟨r, hr, hlt⟩ := residL_pos_lt (lt_of_lt_of_le h2 h1)
    obtain ⟨k, _, e⟩ := XInput.mem_mins hr WithTop.coe_ne_top
    have := hnn k
    rw [← e] at this
    have : 0 ≤ r := by exact_mod_cast this
    linarith
  have est : ∀ k, (initNbr eikS s j).1.state k = if k = j then .narrow else s.1.state k := by
    intro k
    unfold initNbr; rw [if_neg hs]
    simp only [Grid.state_setState, Grid.state_setValue]
    rfl
  have evv : ∀ k, (initNbr eikS s j).1.value k = if k = j then (eikS s.1 j).1 else s.1.value k := by
    intro k
    unfold initNbr; rw [if_neg hs]
    simp only [Grid.value_setState, Grid.value_setValue]
    rfl
  have ev : ∀ k, tf (initNbr eikS s j).1 k = if k = j then (u : WithTop ℝ) else tf s.1 k := by
    intro k
    rw [tf_eq, evv]
    split
    · rw [← hu]
    · rfl
  have emap : SameMap s.1 (initNbr eikS s j).1 := (initNbr_spec eikS s hj).1
  have etm : (initNbr eikS s j).2.2 = if Arith.lt (eikS s.1 j).1 s.2.2 then (eikS s.1 j).1 else s.2.2 := by
    unfold initNbr; rw [if_neg hs]
  have egam : (initNbr eikS s j).2.1 = s.2.1 ++ [j] := by
    unfold initNbr; rw [if_neg hs]
  have htmg : GoodT s.2.2.1 := by
    rcases Y.tm with ⟨h1, _⟩ | ⟨m, hm, _, h1⟩
    · exact Or.inl h1
    · exact Or.inr ⟨m, hm, h1⟩
  have hmin : toT (initNbr eikS s j).2.2.1 ≤ toT s.2.2.1 ∧ toT (initNbr eikS s j).2.2.1 ≤ (u : WithTop ℝ) := by
    rw [etm]
    split
    · next hlt => exact ⟨le_of_lt ((lt_good hgd htmg).1 hlt), by rw [← hu]⟩
    · next hlt => exact ⟨le_refl _, by rw [hu]; exact not_lt.1 (fun h0 => hlt ((lt_good hgd htmg).2 h0))⟩
  have hTf : XInput.Tf (tf (initNbr eikS s j).1) (initNbr eikS s j).1.state = XInput.Tf (tf s.1) s.1.state := by
    funext k
    unfold XInput.Tf
    rw [est, ev]
    by_cases e : k = j
    · rw [if_pos e, if_neg (by simp), e, if_neg hf]
    · rw [if_neg e, if_neg e]
  refine ⟨⟨?_, ?_, ?_, ?_, ?_, ?_, ?_, ?_, ?_, ?_⟩, ?_⟩
  · refine Y.low.write I C.w0 C.hw (le_refl _) C.wA hj ho' emap evv ?_
    intro r hr
    rw [hr] at hup
    have h2 : r ≤ 0 + w := by exact_mod_cast hup
    simpa using h2
  · intro x hx
    rw [ev]; split
    · exact WithTop.coe_ne_top
    · next e =>
      rw [egam] at hx
      rcases List.mem_append.1 hx with hx | hx
      · exact Y.fin x hx
      · exact absurd (by simpa using hx) e
  · intro k hk
    rw [est] at hk; rw [ev]
    by_cases e : k = j
    · rw [if_pos e]; exact_mod_cast hu0
    · rw [if_neg e] at hk ⊢; exact Y.pos k hk
  · right
    rw [etm]
    split
    · refine ⟨u, hu0.le, ?_, hE⟩
      rw [← hu] at hup
      have h2 : u ≤ 0 + w := by exact_mod_cast hup
      linarith
    · next hlt =>
      rcases Y.tm with ⟨h1, _⟩ | h1
      · exfalso
        apply hlt
        show XR.lt (eikS s.1 j).1.1 s.2.2.1 = true
        rw [hE, h1]; rfl
      · exact h1
  · intro k hk
    rw [est] at hk
    by_cases e : k = j
    · rw [if_pos e] at hk; cases hk
    · rw [if_neg e] at hk; exact Y.frz k hk
  · intro k hk
    rw [est] at hk; rw [ev]
    by_cases e : k = j
    · rw [if_pos e]; exact hmin.2
    · rw [if_neg e] at hk ⊢; exact le_trans hmin.1 (Y.nar k hk)
  · intro k hk
    rw [est] at hk
    rw [ev]
    by_cases e : k = j
    · rw [if_pos e] at hk; cases hk
    · rw [if_neg e] at hk ⊢; exact Y.fz0 k hk
  · intro k hk
    rw [est] at hk
    rw [ev]
    by_cases e : k = j
    · rw [if_pos e] at hk; cases hk
    · rw [if_neg e] at hk ⊢; exact Y.opn k hk
  · intro k hok hk
    rw [est] at hk
    rw [ev]
    by_cases e : k = j
    · rw [e, ho'] at hok; cases hok
    · rw [if_neg e] at hk ⊢; exact Y.obs k hok hk
  · intro y hy hoy hfy hn
    rw [hTf, ev]
    by_cases e : y = j
    · subst e
      rw [if_pos rfl, hu]
      intro W hW
      refine I.eik_used Y.low.map Y.low.good hle hy hoy (le_trans hW ?_)
      refine resid_used (List.range (Shape.mk' dims).ndims) (dimMin (Shape.mk' dims) (tf s.1) y)
        (dimMin (Shape.mk' dims) (XInput.Tf (tf s.1) s.1.state) y) ?_
      intro k hk
      by_cases ht : dimMin (Shape.mk' dims) (XInput.Tf (tf s.1) s.1.state) y k = ⊤
      · exact Or.inl ht
      · right
        obtain ⟨i, hi, ei⟩ := dimMin_attained ht
        have hfi : s.1.state i = .frozen := by
          by_contra hc
          rw [ei] at ht
          unfold XInput.Tf at ht
          rw [if_neg hc] at ht
          exact ht rfl
        have h0 : tf s.1 i = 0 := Y.fz0 i hfi
        have hTi : XInput.Tf (tf s.1) s.1.state i = tf s.1 i := by unfold XInput.Tf; rw [if_pos hfi]
        have hle := dimMin_le (T := tf s.1) hi
        rw [ei, hTi]
        refine ⟨hle, lt_of_le_of_lt hle ?_⟩
        rw [h0]; exact hpos
    · rw [if_neg e]
      rw [est, if_neg e] at hfy
      exact Y.conv y hy hoy hfy (by simp [e, hn])
  · rw [ev, if_neg hne]; exact hz

theorem Y64.nbrs (C : Ctx I w d) {p : Nat} : ∀ (ns : List Nat) (s : Grid (F64 R) × List Nat × F64 R),
    (∀ j ∈ ns, j < dims.prod ∧ p ∈ (Shape.mk' dims).nbrs j ∧ p ≠ j) → Y64 I w ns s → tf s.1 p = 0 → Y64 I w [] (ns.foldl (initNbr eikS) s) := by
  intro ns
  induction ns with
  | nil => intro s _ Y _; exact Y
  | cons j js ih =>
    intro s hN Y hz
    obtain ⟨p1, p2, p3⟩ := hN j (by simp)
    obtain ⟨Y', hz'⟩ := Y.nbr C p1 p2 p3 hz
    rw [List.foldl_cons]
    exact ih _ (fun k hk => hN k (by simp [hk])) Y' hz'

theorem Y64.points (C : Ctx I w d) : ∀ (ps : List Nat) (s : Grid (F64 R) × List Nat × F64 R), (∀ p ∈ ps, p ∈ pts) → Y64 I w [] s →
    Y64 I w [] (ps.foldl (initPoint eikS) s) := by
  intro ps
  induction ps with
  | nil => intro s _ Y; exact Y
  | cons p ps ih =>
    intro s hps Y
    rw [List.foldl_cons]
    refine ih _ (fun q hq => hps q (by simp [hq])) ?_
    have hp := hps p (by simp)
    have hpN := I.X.inside p hp
    have hsh : s.1.shape = Shape.mk' dims := Y.low.map.shape.trans I.X.shape
    unfold GMM.initPoint
    rw [hsh]
    have est : ∀ k, ((s.1.setValue p Arith.zero).setState p .frozen).state k = if k = p then .frozen else s.1.state k := by
      intro k; simp only [Grid.state_setState, Grid.state_setValue]
    have evv : ∀ k, ((s.1.setValue p Arith.zero).setState p .frozen).value k = if k = p then Arith.zero else s.1.value k := by
      intro k; rw [Grid.value_setState, Grid.value_setValue]
    have ev : ∀ k, tf ((s.1.setValue p Arith.zero).setState p .frozen) k = if k = p then 0 else tf s.1 k := by
      intro k; rw [tf_eq, evv]; split
      · rfl
      · rfl
    apply Y64.nbrs C (p := p)
    · intro j hj
      refine ⟨nbr_lt I.X.fits hpN hj, nbrs_symm I.X.fits hpN hj, ?_⟩
      rintro rfl
      exact nbrs_irrefl I.X.fits hpN hj
    · generalize hg1 : (s.1.setValue p Arith.zero).setState p .frozen = g1 at est evv ev
      have hm : SameMap s.1 g1 := by rw [← hg1]; exact (sameMap_setValue s.1 p Arith.zero).trans (sameMap_setState _ _ _)
      refine ⟨Y.low.zero I C.w0 hp hm evv, ?_, ?_, Y.tm, ?_, ?_, ?_, ?_, ?_, ?_⟩ <;> dsimp only
      · intro x hx
        rw [ev]; split
        · exact WithTop.coe_ne_top
        · exact Y.fin x hx
      · intro k hk
        rw [est] at hk; rw [ev]
        by_cases e : k = p
        · rw [if_pos e] at hk; exact absurd rfl hk
        · rw [if_neg e] at hk ⊢; exact Y.pos k hk
      · intro k hk
        rw [est] at hk
        by_cases e : k = p
        · rw [e]; exact hp
        · rw [if_neg e] at hk; exact Y.frz k hk
      · intro k hk
        rw [est] at hk; rw [ev]
        by_cases e : k = p
        · rw [if_pos e] at hk; exact absurd rfl hk
        · rw [if_neg e] at hk ⊢; exact Y.nar k hk
      · intro k hk
        rw [est] at hk; rw [ev]
        by_cases e : k = p
        · rw [if_pos e]
        · rw [if_neg e] at hk ⊢; exact Y.fz0 k hk
      · intro k hk
        rw [est] at hk; rw [ev]
        by_cases e : k = p
        · rw [if_pos e] at hk; cases hk
        · rw [if_neg e] at hk ⊢; exact Y.opn k hk
      · intro k ho hk
        rw [est] at hk; rw [ev]
        by_cases e : k = p
        · rw [if_pos e] at hk; exact absurd rfl hk
        · rw [if_neg e] at hk ⊢; exact Y.obs k ho hk
      · intro y hy ho hf hn
        rw [est] at hf; rw [ev]
        by_cases e : y = p
        · rw [if_pos e] at hf; exact absurd rfl hf
        · rw [if_neg e] at hf ⊢
          refine (Y.conv y hy ho hf (by simp)).mono ?_ (le_refl _)
          intro j hj
          have hjp : j ≠ p := by
            rintro rfl
            exact hn (nbrs_symm I.X.fits hy hj)
          unfold XInput.Tf
          rw [est, ev, if_neg hjp, if_neg hjp]
    · rw [ev, if_pos rfl]

theorem scv_top64 (I : DInput dims g h v pts cm cM A) {T : Nat → WithTop ℝ} {y : Nat} (hy : y < dims.prod) (ho : g.occ y = false)
    (hT : ∀ j ∈ (Shape.mk' dims).nbrs y, T j = ⊤) (t : WithTop ℝ) (β : ℝ) : SCv I.X β T y t := by
  intro Y hY
  exfalso
  have := I.X.csq hy (show (gridX g).occ y = false from ho)
  obtain ⟨r, hr, _⟩ := residL_pos_lt (lt_of_lt_of_le this hY)
  obtain ⟨j, hj, e⟩ := XInput.mem_mins hr WithTop.coe_ne_top
  rw [hT j hj] at e
  exact WithTop.coe_ne_top e

theorem Y64.start (C : Ctx I w d) (hfr : Fresh g) : Y64 I w [] (pts.foldl (initPoint eikS) (g, [], Arith.inf)) := by
  apply Y64.points C _ _ (fun p hp => hp)
  have hT : ∀ k, tf g k = ⊤ := fun k => by rw [tf_eq, hfr.value]; rfl
  refine ⟨(DInput.LInv.fresh I w hfr).mono I C.w0 (by omega), by simp, fun k _ => ?_, Or.inl ⟨rfl, rfl⟩, ?_, ?_, ?_, fun k _ => hT k, fun k _ _ => hT k, ?_⟩
  · dsimp only; rw [hT]; exact WithTop.top_pos
  · intro k hk
    have hk : g.state k = .frozen := hk
    rw [hfr.state] at hk; cases hk
  · intro k hk
    dsimp only; rw [hT]; exact le_top
  · intro k hk
    have hk : g.state k = .frozen := hk
    rw [hfr.state] at hk; cases hk
  · intro y hy ho _ _
    apply scv_top64 I hy ho
    intro j _
    unfold XInput.Tf
    split
    · exact hT j
    · rfl

/-- after the initialisation the wave invariant holds for every `τ` below all times of unfrozen cells -/
theorem Y64.ri (C : Ctx I w d) {s : Grid (F64 R) × List Nat × F64 R} (Y : Y64 I w [] s)
    (hτ : ∀ y, s.1.state y ≠ .frozen → (τ : WithTop ℝ) ≤ tf s.1 y) : RI I w d τ [] s.1 := by
  have hd := C.sm.d0
  have he := C.sm.e0
  have hkap : kap dims.length (I.θ + I.β) d = Real.sqrt dims.length * (d + (I.θ + I.β)) + (I.θ + I.β) := rfl
  have hbz : bz dims.length (I.θ + I.β) d τ = τ - d - kap dims.length (I.θ + I.β) d - (I.θ + I.β) := rfl
  have hq : 0 ≤ Real.sqrt dims.length * (d + (I.θ + I.β)) := C.sm.qpos.le
  have hle : ∀ r : ℝ, r ≤ τ → ∀ y, s.1.state y ≠ .frozen → (r : WithTop ℝ) ≤ tf s.1 y := by
    intro r hr y hy
    refine le_trans ?_ (hτ y hy)
    exact_mod_cast hr
  have htr : ∀ z, XInput.Tf (tf s.1) s.1.state z ≤ trunc (bz dims.length (I.θ + I.β) d τ) (tf s.1) z := by
    intro z
    unfold XInput.Tf trunc
    split
    · split
      · exact le_refl _
      · exact le_top
    · next hf => rw [if_neg (not_lt.2 (hle _ (by linarith) z hf))]
  refine ⟨?_, ⟨fun y _ => Y.obs y, fun y _ => hle _ (by linarith) y,
    fun y h1 h2 h3 => Y.conv y h1 h2 h3 (by simp), ?_, ?_, ?_⟩, ?_⟩
  · have K := Y.low
    refine ⟨K.map, K.good, K.low, K.out, ?_⟩
    intro i r hr
    have hiN : i < dims.prod := by
      by_contra hc
      rw [K.out i (by omega)] at hr
      exact absurd hr (by simp)
    have hmem : i ∈ DInput.reached dims s.1 := by rw [DInput.mem_reached, hr]; exact ⟨hiN, WithTop.coe_ne_top⟩
    have hc : 1 ≤ 0 + (DInput.reached dims s.1).card := by
      have := Finset.card_pos.2 ⟨i, hmem⟩; omega
    refine le_trans (K.bnd i r hr) (mul_le_mul_of_nonneg_left ?_ C.w0)
    exact_mod_cast hc
  · intro y h1 h2 h3
    exact (Y.conv y h1 h2 h3 (by simp)).mono (fun j _ => htr j) (hle _ (by linarith) y h3)
  · intro y h1 h2 h3 _
    exact ⟨(Y.conv y h1 h2 h3 (by simp)).mono (fun j _ => htr j) (hτ y h3), hle _ (by linarith) y h3⟩
  · intro y _ _ hf hp
    exact absurd (Y.frz y hf) hp
  · intro y _ _ hop hne
    exact absurd (Y.opn y hop) hne

end GMM64
end FMV
