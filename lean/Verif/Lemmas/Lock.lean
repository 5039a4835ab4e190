import Verif.Lemmas.Improve
/-! Facts shared by the solvers that lock cells (LSM, DDQM), and by all that stop at a fixed point. -/
set_option linter.unusedSectionVars false
set_option linter.unusedVariables false
namespace FMV
open Spec Shape XR FMM
variable {F : Type} [Arith F]

/-- good values are kept -/
structure Keeps {good : F → Prop} (R : Ranked F good) (eik : Eik F) (N : Nat) (J : Grid F → Prop) : Prop where
  tried : ∀ g g' i b, J g → Tried eik g g' i b → i < N → g.occ i = false → J g'
  good : ∀ g i, J g → i < N → g.occ i = false → good (g.value i) ∧ good (eik g i).1

section exact
variable {dims : List Nat} {g : Grid XR} {h : ℝ} {v : Nat → ℝ} {pts : List Nat}

/-- invariant of LSM and DDQM: a locked free cell cannot be improved -/
structure LInv (X : XInput dims g h v pts) (g' : Grid XR) : Prop where
  sinv : X.SInv g'
  st : ∀ i, i < dims.prod → g'.state i = .opn ∨ g'.state i = .frozen
  lock : ∀ i, i < dims.prod → g.occ i = false → g'.state i = .frozen → X.NB (tv g') i

theorem tv_better (X : XInput dims g h v pts) {g' : Grid XR} (I : X.SInv g') {t : WithTop ℝ} {k : Nat} :
    Arith.better (ofT t) (g'.value k) = true ↔ t + (eps : WithTop ℝ) < tv g' k := by
  have : g'.value k = ofT (tv g' k) := by unfold tv; rw [(I.good k).ofT_toT]
  rw [this, better_ofT]

theorem NB_congr (X : XInput dims g h v pts) {T T' : Nat → WithTop ℝ} (h1 : ∀ k, T' k = T k) {i : Nat} (hn : X.NB T i) : X.NB T' i := by
  have : T' = T := funext h1
  rw [this]; exact hn

theorem nb_source (X : XInput dims g h v pts) {g' : Grid XR} (I : X.SInv g') {i : Nat} (hi : i < dims.prod) (ho : g.occ i = false)
    (hp : i ∈ pts) : X.NB (tv g') i := by
  intro hb
  rw [I.src i hp] at hb
  have h0 : 0 ≤ upd (h / v i) 0 (mins (Shape.mk' dims) (tv g') i) :=
    upd_nonneg (X.cpos hi ho) (XInput.mins_nn (fun k => (I.good k).toT_nonneg) i)
  exact absurd hb (not_lt.2 (add_nonneg h0 (by exact_mod_cast eps_pos.le)))

/-- a cell none of whose neighbours has a finite time cannot be improved -/
theorem nb_lonely (X : XInput dims g h v pts) {T : Nat → WithTop ℝ} {i : Nat} (hi : i < dims.prod) (ho : g.occ i = false)
    (hn : ∀ j ∈ (Shape.mk' dims).nbrs i, T j = ⊤) : X.NB T i := by
  have : upd (h / v i) (T i) (mins (Shape.mk' dims) T i) = ⊤ := by
    rw [upd_eq_top_iff (X.cpos hi ho)]
    intro m hm
    left
    unfold mins at hm
    rw [List.mem_map] at hm
    obtain ⟨k, hk, rfl⟩ := hm
    apply top_le_iff.1
    apply le_dimMin
    intro j hj
    rw [hn j (mem_nbrs.2 ⟨k, List.mem_range.1 hk, hj⟩)]
  intro hb
  rw [this] at hb
  simp at hb

/-- a state in which no free cell can be improved is accurate -/
theorem accurate_of_fix (X : XInput dims g h v pts) {g' : Grid XR} (I : X.SInv g') (U : Nat → WithTop ℝ) (hU : X.problem.IsSolution U)
    (hfix : ∀ i, i < dims.prod → g.occ i = false → Arith.better (solveEikonal g' i) (g'.value i) = false) (i : Nat) (hi : i < dims.prod) :
    U i ≤ toT (g'.value i) ∧ toT (g'.value i) ≤ U i + ((dims.prod * (2 * eps) : ℝ) : WithTop ℝ) := by
  refine ⟨I.low U hU i hi, X.fix_accuracy (T := tv g') (fun k hk => (I.src k hk).le) ?_ U hU i hi⟩
  intro k hk hko _ hb
  have h1 := hfix k hk hko
  rw [← eikS_eq_solve X.fits X.two (I.map.shape.trans X.shape) hk] at h1
  rw [(X.better_iff I.map I.good hk hko).2 hb] at h1
  cases h1


/-- locking cell `i` after trying to improve it, and unlocking the neighbours whose time is worse than the new one, keeps the invariant -/
theorem LInv.lockStep (X : XInput dims g h v pts) {g1 g2 : Grid XR} {i : Nat} {b : Bool} (I : LInv X g1) (hi : i < dims.prod)
    (ho : g1.occ i = false) (hT : Tried eikS g1 g2 i b)
    (hyes : b = true → ∀ k, k < dims.prod → g2.state k = if k = i then .frozen else
      if k ∈ (Shape.mk' dims).nbrs i ∧ Arith.better (eikS g1 i).1 (g1.value k) = true then .opn else g1.state k)
    (hno : b = false → Arith.better (eikS g1 i).1 (g1.value i) = false ∧
      ∀ k, k < dims.prod → g2.state k = if k = i then .frozen else g1.state k) : LInv X g2 := by
  have ho' : g.occ i = false := by rw [← SameMap.occ_eq I.sinv.map]; exact ho
  have hS := I.sinv.tried X hT hi ho'
  have hTo : ∀ k, k ≠ i → tv g2 k = tv g1 k := by
    intro k hk; unfold tv; rw [hT.other k hk]
  cases b with
  | true =>
    obtain ⟨hb, hv⟩ := hT.yes rfl
    have hst := hyes rfl
    have he := X.eik_eq I.sinv.map I.sinv.good hi ho'
    set u := upd (h / v i) (tv g1 i) (mins (Shape.mk' dims) (tv g1) i) with hu
    have hbu : u + (eps : WithTop ℝ) < tv g1 i := by rw [he] at hb; exact (tv_better X I.sinv).1 hb
    have hult : u ≤ tv g1 i := by
      refine le_trans ?_ hbu.le
      exact le_add_of_nonneg_right (by exact_mod_cast eps_pos.le)
    have hune : u ≠ ⊤ := by rintro h0; rw [h0] at hbu; simp at hbu
    have hTi : tv g2 i = u := by
      unfold tv
      rw [hv, he]; simp
    refine ⟨hS, ?_, ?_⟩
    · intro k hk
      rw [hst k hk]
      split
      · right; rfl
      · split
        · left; rfl
        · exact I.st k hk
    · intro k hk hko hkf
      rw [hst k hk] at hkf
      by_cases hki : k = i
      · subst hki
        exact XInput.NB.self X hk hko hTo hTi (by rw [hTi]; exact hult)
      · rw [if_neg hki] at hkf
        split at hkf
        · cases hkf
        · next hc =>
          have hnb := I.lock k hk hko hkf
          by_cases hkn : k ∈ (Shape.mk' dims).nbrs i
          · refine XInput.NB.drop X hk hko hki hnb hTo (by rw [hTi]; exact hult) ?_ (by rw [hTi]; exact hune)
            rw [hTi]
            intro hlt
            exact hc ⟨hkn, by rw [he]; exact (tv_better X I.sinv).2 hlt⟩
          · refine XInput.NB.far X hki ?_ hnb hTo
            intro hik
            exact hkn (nbrs_symm X.fits hk hik)
  | false =>
    obtain ⟨hb, hst⟩ := hno rfl
    have hTo' : ∀ k, tv g2 k = tv g1 k := by
      intro k
      by_cases hk : k = i
      · subst hk; unfold tv; rw [hT.no rfl]
      · exact hTo k hk
    refine ⟨hS, ?_, ?_⟩
    · intro k hk
      rw [hst k hk]
      split
      · right; rfl
      · exact I.st k hk
    · intro k hk hko hkf
      apply NB_congr X hTo'
      by_cases hki : k = i
      · subst hki
        intro hc
        have := (X.better_iff I.sinv.map I.sinv.good hi ho').2 hc
        rw [hb] at this; cases this
      · rw [hst k hk, if_neg hki] at hkf
        exact I.lock k hk hko hkf

end exact

theorem keeps_true [Fintype F] (L : MarginLaws F) (eik : Eik F) (N : Nat) : Keeps (Ranked.ofFinite L) eik N (fun _ => True) where
  tried := fun _ _ _ _ _ _ _ _ => trivial
  good := fun _ _ _ _ _ => ⟨trivial, trivial⟩

theorem keeps_exact {dims : List Nat} {g : Grid XR} {h : ℝ} {v : Nat → ℝ} {pts : List Nat} (X : XInput dims g h v pts) :
    Keeps Ranked.exact eikS dims.prod X.SInv where
  tried := fun a b i c hJ hT hi ho => hJ.tried X hT hi (by rw [← SameMap.occ_eq hJ.map]; exact ho)
  good := fun a i hJ hi ho => ⟨hJ.good i, X.eik_good hJ.map hJ.good hi (by rw [← SameMap.occ_eq hJ.map]; exact ho)⟩

theorem dims_ne {dims : List Nat} {B : Nat} (h : Fits dims B) : dims ≠ [] := by
  intro h0; have := h.two; rw [h0] at this; simp at this

end FMV
