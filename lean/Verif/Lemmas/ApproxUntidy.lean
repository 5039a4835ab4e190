import Verif.Lemmas.ApproxFMM
/-! Invariants of fast marching with an untidy queue, an approximate local solver and an approximate acceptance test: cells are frozen in an order that is right up
to `Δ` and the errors of an update; no cell that is not frozen has a time below `Θ` by more than the latter. -/
set_option linter.unusedSectionVars false
set_option linter.unusedVariables false
namespace FMV
open Spec Shape XR FMM

namespace XInput
variable {dims : List Nat} {g : Grid XR} {h : ℝ} {v : Nat → ℝ} {pts : List Nat}

structure VBase (X : XInput dims g h v pts) (θ β Δ w : ℝ) (L : Nat) (Θ : ℝ) (T : Nat → WithTop ℝ) (st : Nat → FMState) (heap : List Nat) : Prop where
  nn : ∀ k, 0 ≤ T k
  heapN : ∀ y ∈ heap, y < dims.prod
  fzN : ∀ k, st k = .frozen → k < dims.prod
  finF : ∀ k, st k = .frozen → T k ≠ ⊤
  finH : ∀ y ∈ heap, T y ≠ ⊤
  heapK : ∀ y ∈ heap, st y = .frozen ∨ st y = .narrow ∨ y ∈ pts
  nar : ∀ k, st k = .narrow → k ∈ heap ∧ g.occ k = false ∧ k ∉ pts
  opn : ∀ k, st k = .opn → k ∉ pts → T k = ⊤
  ini : ∀ k ∈ pts, T k = 0 ∧ (st k = .frozen ∨ k ∈ heap)
  pos : ∀ k, k ∉ pts → 0 < T k
  bnd : ∀ k (r : ℝ), T k = (r : WithTop ℝ) → r ≤ (w + (θ + 2 * β + Δ)) * (L + 2)
  rch : ∀ k, st k = .frozen ∨ k ∈ heap → ∃ d, X.Hops d k
  dist : ∀ i d, st i = .frozen → X.Hops d i → T i ≤ (((w + (θ + 2 * β + Δ)) * (d + 1) : ℝ) : WithTop ℝ)
  fzle : ∀ i, st i = .frozen → T i ≤ ((Θ + Δ : ℝ) : WithTop ℝ)
  nfge : ∀ k, k < dims.prod → st k ≠ .frozen → (Θ : WithTop ℝ) ≤ T k + ((θ + 2 * β : ℝ) : WithTop ℝ)
  i2f : ∀ k, st k = .frozen → k ∉ pts → ∀ Y : ℝ, (h / v k)^2 ≤ residL Y (mins (Shape.mk' dims) (Tf T st) k) → T k ≤ ((Y + (θ + 2 * β + Δ) : ℝ) : WithTop ℝ)
  i3 : ∀ k, st k ≠ .frozen → k < dims.prod → g.occ k = false → k ∉ pts → ∀ Y : ℝ, Y + (θ + 2 * β) < Θ →
    residL Y (mins (Shape.mk' dims) (Tf T st) k) < (h / v k - θ)^2

structure VInv (X : XInput dims g h v pts) (θ β Δ w : ℝ) (L : Nat) (Θ : ℝ) (T : Nat → WithTop ℝ) (st : Nat → FMState) (heap : List Nat) : Prop
    extends VBase X θ β Δ w L Θ T st heap where
  closed : ∀ i j, st i = .frozen → j ∈ (Shape.mk' dims).nbrs i → g.occ j = false → j ∉ pts → st j = .frozen ∨ st j = .narrow
  i2n : ∀ k, st k = .narrow → ∀ Y : ℝ, (h / v k)^2 ≤ residL Y (mins (Shape.mk' dims) (Tf T st) k) → T k ≤ ((Y + 2 * β : ℝ) : WithTop ℝ)
  n1 : ∀ k, st k = .narrow → ∀ q ∈ (Shape.mk' dims).nbrs k, st q = .frozen → T k ≤ T q + (w : WithTop ℝ)

structure VMid (X : XInput dims g h v pts) (θ β Δ w : ℝ) (L : Nat) (Θ : ℝ) (x : Nat) (todo : List Nat) (T : Nat → WithTop ℝ) (st : Nat → FMState)
    (heap : List Nat) : Prop extends VBase X θ β Δ w L Θ T st heap where
  fx : st x = .frozen
  ini' : x ∈ pts ∨ ∀ k ∈ pts, st k = .frozen
  closed : ∀ i j, st i = .frozen → (i ≠ x ∨ j ∉ todo) → j ∈ (Shape.mk' dims).nbrs i → g.occ j = false → j ∉ pts → st j = .frozen ∨ st j = .narrow
  i2n : ∀ k, st k = .narrow → k ∉ todo → ∀ Y : ℝ, (h / v k)^2 ≤ residL Y (mins (Shape.mk' dims) (Tf T st) k) → T k ≤ ((Y + 2 * β : ℝ) : WithTop ℝ)
  n1 : ∀ k, st k = .narrow → k ∉ todo → ∀ q ∈ (Shape.mk' dims).nbrs k, st q = .frozen → T k ≤ T q + (w : WithTop ℝ)

theorem VMid.done (X : XInput dims g h v pts) {θ β Δ w L Θ x T st heap} (m : X.VMid θ β Δ w L Θ x [] T st heap) : X.VInv θ β Δ w L Θ T st heap :=
  { toVBase := m.toVBase
    closed := fun i j hi hj ho hp => m.closed i j hi (Or.inr (by simp)) hj ho hp
    i2n := fun k hk => m.i2n k hk (by simp)
    n1 := fun k hk => m.n1 k hk (by simp) }

theorem VMid.skip (X : XInput dims g h v pts) {θ β Δ w L Θ x j T st heap} {rest : List Nat} (m : X.VMid θ β Δ w L Θ x (j :: rest) T st heap)
    (hsk : st j = .frozen ∨ g.occ j = true) : X.VMid θ β Δ w L Θ x rest T st heap :=
  have hne : ∀ k, st k = .narrow → k ≠ j := by
    rintro k hk rfl
    rcases hsk with h1 | h1
    · rw [hk] at h1; cases h1
    · rw [(m.nar k hk).2.1] at h1; cases h1
  { toVBase := m.toVBase
    fx := m.fx
    ini' := m.ini'
    closed := by
      intro i k hi hor hk ho hp
      by_cases hkj : k = j
      · subst hkj
        rcases hsk with h1 | h1
        · exact Or.inl h1
        · rw [ho] at h1; cases h1
      · apply m.closed i k hi _ hk ho hp
        rcases hor with h1 | h1
        · exact Or.inl h1
        · right; simp [hkj, h1]
    i2n := fun k hk hkr => m.i2n k hk (by simp [hne k hk, hkr])
    n1 := fun k hk hkr => m.n1 k hk (by simp [hne k hk, hkr]) }

theorem VMid.not_init (X : XInput dims g h v pts) (hna : X.NonAdj) {θ β Δ w L Θ x T st heap} {todo : List Nat} (m : X.VMid θ β Δ w L Θ x todo T st heap) {j : Nat}
    (hj : j ∈ (Shape.mk' dims).nbrs x) (ho : g.occ j = false) (hnf : st j ≠ .frozen) : j ∉ pts := by
  intro hp
  rcases m.ini' with h1 | h1
  · exact hna j hp ho x (nbrs_symm X.fits (m.fzN x m.fx) hj) h1
  · exact hnf (h1 j hp)

theorem VMid.update (X : XInput dims g h v pts) (hna : X.NonAdj) {θ β Δ w L Θ x j T st heap} (hΔ : 0 ≤ Δ) (P : X.Par θ β w L) {rest : List Nat}
    (m : X.VMid θ β Δ w L Θ x (j :: rest) T st heap) (hj : j ∈ (Shape.mk' dims).nbrs x) (hjr : j ∉ rest) (ho : g.occ j = false)
    (hnf : st j ≠ .frozen) {T' : Nat → WithTop ℝ} {st' : Nat → FMState} {heap' : List Nat}
    (hst : ∀ k, st' k = if k = j then .narrow else st k) (hheap : ∀ y, y ∈ heap' ↔ y ∈ heap ∨ y = j)
    {s : WithTop ℝ} (hs : Apr (h / v j) θ β (T j) (mins (Shape.mk' dims) T j) s) (hT1 : ∀ k, k ≠ j → T' k = T k)
    (hT2 : (T' j = s ∧ (st j = .opn ∨ s < T j)) ∨ (st j = .narrow ∧ T' j = T j ∧ T j ≤ s + (β : WithTop ℝ))) :
    X.VMid θ β Δ w L Θ x rest T' st' heap' := by
  have hxN := m.fzN x m.fx
  have hjN : j < dims.prod := FMM.nbr_lt X.fits hxN hj
  have hjp := m.not_init X hna hj ho hnf
  have hc := X.cpos hjN ho
  have hθc := P.θc j hjN ho
  have hβ := P.β0
  have hθ := P.θ0
  have hcw := P.cw j hjN ho
  have fz : ∀ k, st' k = .frozen ↔ st k = .frozen := by
    intro k; rw [hst]; split
    · next hk => rw [hk]; constructor
                 · intro hh; cases hh
                 · intro hh; exact absurd hh hnf
    · rfl
  have Tfz : ∀ k, st k = .frozen → T' k = T k := fun k hk => hT1 k (by rintro rfl; exact hnf hk)
  have hopT : st j = .opn → T j = ⊤ := fun h1 => m.opn j h1 hjp
  have hTj : T' j ≤ T j := by
    rcases hT2 with ⟨e, h1 | h1⟩ | ⟨_, e, _⟩
    · rw [hopT h1]; exact le_top
    · rw [e]; exact h1.le
    · exact le_of_eq e
  have hTj2 : T' j ≤ s + (β : WithTop ℝ) := by
    have hb : (0 : WithTop ℝ) ≤ (β : WithTop ℝ) := by exact_mod_cast hβ
    rcases hT2 with ⟨e, _⟩ | ⟨_, e, h1⟩
    · rw [e]; exact le_add_of_nonneg_right hb
    · rw [e]; exact h1
  have hTfe : Tf T' st' = Tf T st := Tf_congr fz Tfz
  -- order
  have hord : (Θ : WithTop ℝ) ≤ T' j + ((θ + 2 * β : ℝ) : WithTop ℝ) := by
    rcases hT2 with ⟨e, h1⟩ | ⟨_, e, _⟩
    · by_contra hcon
      have hcon := not_le.1 hcon
      rw [e] at hcon
      cases hs' : s with
      | top => rw [hs'] at hcon; simp at hcon
      | coe u =>
        rw [hs'] at hcon
        have hcon' : u + (θ + 2 * β) < Θ := by exact_mod_cast hcon
        have h2 := hs.lower u hs'
        have h3 := m.i3 j hnf hjN ho hjp u hcon'
        have h4 := X.residL_mins_le_of (Y := u) (S := T) (S' := Tf T st) (k := j) (by
          intro a ha hlt
          unfold Tf
          split
          · exact le_refl _
          · next hnfa =>
            exfalso
            have h5 := m.nfge a (FMM.nbr_lt X.fits hjN ha) hnfa
            have h6 : T a + ((θ + 2 * β : ℝ) : WithTop ℝ) ≤ ((u + (θ + 2 * β) : ℝ) : WithTop ℝ) := coe_add_le hlt.le
            have h7 : Θ ≤ u + (θ + 2 * β) := by exact_mod_cast le_trans h5 h6
            linarith)
        linarith
    · rw [e]; exact m.nfge j hjN hnf
  have hposj : 0 < T' j := by
    rcases hT2 with ⟨e, h1⟩ | ⟨_, e, _⟩
    · rw [e]
      cases hs' : s with
      | top => simp
      | coe u =>
        have h2 := hs.lower u hs'
        have h3 : 0 < (h / v j - θ)^2 := by
          have : 0 < h / v j - θ := by linarith
          positivity
        obtain ⟨t, ht, htu⟩ := residL_pos_lt (lt_of_lt_of_le h3 h2)
        have h0 : (0:ℝ) ≤ t := by exact_mod_cast mins_nn m.nn j _ ht
        exact_mod_cast lt_of_le_of_lt h0 htu
    · rw [e]; exact m.pos j hjp
  -- one move from any frozen neighbour
  have hn1 : ∀ q ∈ (Shape.mk' dims).nbrs j, st q = .frozen → T' j ≤ T q + (w : WithTop ℝ) := by
    intro q hq hqf
    obtain ⟨mm, hmm, hle⟩ := mins_le (T := T) hq
    have hw0 : (0 : WithTop ℝ) ≤ (w : WithTop ℝ) := by exact_mod_cast P.w0
    cases hmt : mm with
    | top => rw [hmt] at hle; exact absurd (top_le_iff.1 hle) (m.finF q hqf)
    | coe t =>
      rw [hmt] at hle hmm
      by_cases hlt : (t : WithTop ℝ) < T j
      · have h1 := hs.near t hmm hlt
        have h2 : T' j ≤ ((t + (h / v j + β) + β : ℝ) : WithTop ℝ) := le_trans hTj2 (coe_add_le h1)
        refine le_trans h2 ?_
        have h3 : ((t + w : ℝ) : WithTop ℝ) ≤ T q + (w : WithTop ℝ) := by
          have : ((t + w : ℝ) : WithTop ℝ) = (t : WithTop ℝ) + (w : WithTop ℝ) := rfl
          rw [this]; gcongr
        refine le_trans ?_ h3
        have : t + (h / v j + β) + β ≤ t + w := by linarith
        exact_mod_cast this
      · exact le_trans hTj (le_trans (not_lt.1 hlt) (le_trans hle (le_add_of_nonneg_right hw0)))
  have hxj := nbrs_symm X.fits hxN hj
  have hfinj : T' j ≠ ⊤ := by
    have h1 := hn1 x hxj m.fx
    cases hTx : T x with
    | top => exact absurd hTx (m.finF x m.fx)
    | coe t =>
      rw [hTx] at h1
      intro htop
      rw [htop] at h1
      have : ((t : WithTop ℝ) + (w : WithTop ℝ)) = ((t + w : ℝ) : WithTop ℝ) := rfl
      rw [this] at h1
      exact WithTop.coe_ne_top (top_le_iff.1 h1)
  have hTle : ∀ k, T' k ≤ T k := by
    intro k
    by_cases hk : k = j
    · rw [hk]; exact hTj
    · exact le_of_eq (hT1 k hk)
  refine { nn := ?_, heapN := ?_, fzN := ?_, finF := ?_, finH := ?_, heapK := ?_, nar := ?_, opn := ?_, ini := ?_, pos := ?_, bnd := ?_, rch := ?_,
           dist := ?_, fzle := ?_, nfge := ?_, i2f := ?_, i3 := ?_, fx := ?_, ini' := ?_, closed := ?_, i2n := ?_, n1 := ?_ }
  · intro k
    by_cases hk : k = j
    · rw [hk]; exact hposj.le
    · rw [hT1 k hk]; exact m.nn k
  · intro y hy
    rcases (hheap y).1 hy with h1 | rfl
    · exact m.heapN y h1
    · exact hjN
  · intro k hk; exact m.fzN k ((fz k).1 hk)
  · intro k hk; rw [Tfz k ((fz k).1 hk)]; exact m.finF k ((fz k).1 hk)
  · intro y hy
    by_cases hyj : y = j
    · rw [hyj]; exact hfinj
    · rcases (hheap y).1 hy with h1 | h1
      · rw [hT1 y hyj]; exact m.finH y h1
      · exact absurd h1 hyj
  · intro y hy
    by_cases hyj : y = j
    · right; left; rw [hst, if_pos hyj]
    · rcases (hheap y).1 hy with h1 | h1
      · rw [hst, if_neg hyj]; exact m.heapK y h1
      · exact absurd h1 hyj
  · intro k hk
    by_cases hkj : k = j
    · subst hkj; exact ⟨(hheap k).2 (Or.inr rfl), ho, hjp⟩
    · rw [hst, if_neg hkj] at hk
      have := m.nar k hk
      exact ⟨(hheap k).2 (Or.inl this.1), this.2⟩
  · intro k hk hkp
    by_cases hkj : k = j
    · rw [hst, if_pos hkj] at hk; cases hk
    · rw [hst, if_neg hkj] at hk
      rw [hT1 k hkj]; exact m.opn k hk hkp
  · intro k hk
    have hkj : k ≠ j := by rintro rfl; exact hjp hk
    rw [hT1 k hkj]
    refine ⟨(m.ini k hk).1, ?_⟩
    rcases (m.ini k hk).2 with h1 | h1
    · exact Or.inl ((fz k).2 h1)
    · exact Or.inr ((hheap k).2 (Or.inl h1))
  · intro k hk
    by_cases hkj : k = j
    · rw [hkj]; exact hposj
    · rw [hT1 k hkj]; exact m.pos k hk
  · -- bound
    intro k r hk
    by_cases hkj : k = j
    · rw [hkj] at hk
      have h1 := hn1 x hxj m.fx
      obtain ⟨d, hd, hh⟩ := P.hops x (m.rch x (Or.inl m.fx))
      have h2 := m.dist x d m.fx hh
      have h3 : T' j ≤ (((w + (θ + 2 * β + Δ)) * (d + 1) + w : ℝ) : WithTop ℝ) := le_trans h1 (coe_add_le h2)
      rw [hk] at h3
      have h4 : r ≤ (w + (θ + 2 * β + Δ)) * (d + 1) + w := by exact_mod_cast h3
      have h5 : (d:ℝ) ≤ L := by exact_mod_cast hd
      have hw := P.w0
      have := mul_le_mul_of_nonneg_left h5 (show 0 ≤ w + (θ + 2 * β + Δ) by linarith)
      linarith
    · rw [hT1 k hkj] at hk; exact m.bnd k r hk
  · intro k hk
    by_cases hkj : k = j
    · obtain ⟨d, hh⟩ := m.rch x (Or.inl m.fx)
      rw [hkj]
      exact ⟨d + 1, .move hh hj ho⟩
    · apply m.rch k
      rcases hk with h1 | h1
      · exact Or.inl ((fz k).1 h1)
      · rcases (hheap k).1 h1 with h2 | h2
        · exact Or.inr h2
        · exact absurd h2 hkj
  · intro i d hi hh
    rw [Tfz i ((fz i).1 hi)]; exact m.dist i d ((fz i).1 hi) hh
  · intro i hi
    rw [Tfz i ((fz i).1 hi)]; exact m.fzle i ((fz i).1 hi)
  · intro k hk hkf
    by_cases hkj : k = j
    · rw [hkj]; exact hord
    · rw [hT1 k hkj]; exact m.nfge k hk (fun hh => hkf ((fz k).2 hh))
  · intro k hk hkp Y hY
    rw [hTfe] at hY
    rw [Tfz k ((fz k).1 hk)]
    exact m.i2f k ((fz k).1 hk) hkp Y hY
  · intro k hkf hk hok hkp Y hY
    rw [hTfe]
    exact m.i3 k (fun hh => hkf ((fz k).2 hh)) hk hok hkp Y hY
  · exact (fz x).2 m.fx
  · rcases m.ini' with h1 | h1
    · exact Or.inl h1
    · right; intro k hk; exact (fz k).2 (h1 k hk)
  · intro i k hi hor hk hok hkp
    by_cases hkj : k = j
    · right; rw [hst, if_pos hkj]
    · have := m.closed i k ((fz i).1 hi) (by
        rcases hor with h1 | h1
        · exact Or.inl h1
        · right; simp [hkj, h1]) hk hok hkp
      rw [hst, if_neg hkj]; exact this
  · intro k hk hkr Y hY
    rw [hTfe] at hY
    by_cases hkj : k = j
    · subst hkj
      by_cases hlt : (Y : WithTop ℝ) < T k
      · have h1 := hs.upper Y hlt (le_trans hY (X.residL_mins_le_of (fun a ha _ => by
          unfold Tf; split
          · exact le_refl _
          · exact le_top)))
        refine le_trans hTj2 (le_trans (coe_add_le h1) ?_)
        have : Y + β + β ≤ Y + 2 * β := by linarith
        exact_mod_cast this
      · refine le_trans hTj (le_trans (not_lt.1 hlt) ?_)
        have : Y ≤ Y + 2 * β := by linarith
        exact_mod_cast this
    · rw [hst, if_neg hkj] at hk
      rw [hT1 k hkj]
      exact m.i2n k hk (by simp [hkj, hkr]) Y hY
  · intro k hk hkr q hq hqf
    rw [Tfz q ((fz q).1 hqf)]
    by_cases hkj : k = j
    · subst hkj; exact hn1 q hq ((fz q).1 hqf)
    · rw [hst, if_neg hkj] at hk
      rw [hT1 k hkj]
      exact m.n1 k hk (by simp [hkj, hkr]) q hq ((fz q).1 hqf)

/-- the popped cell is no further than its graph distance allows -/
theorem VInv.pop_dist (X : XInput dims g h v pts) {θ β Δ w L Θ T st heap} (hΔ : 0 ≤ Δ) (P : X.Par θ β w L) (A : X.VInv θ β Δ w L Θ T st heap) {x : Nat}
    (hmin : ∀ y, y < dims.prod → st y ≠ .frozen → T x ≤ T y + ((θ + 2 * β + Δ : ℝ) : WithTop ℝ)) :
    ∀ d i, X.Hops d i → st i ≠ .frozen → T x ≤ (((w + (θ + 2 * β + Δ)) * (d + 1) : ℝ) : WithTop ℝ) := by
  have hβ := P.β0
  have hθ := P.θ0
  have hw := P.w0
  intro d i hh
  induction hh with
  | @start i hi =>
    intro hf
    have := hmin i (X.inside i hi) hf
    rw [(A.ini i hi).1, zero_add] at this
    refine le_trans this ?_
    have : θ + 2 * β + Δ ≤ (w + (θ + 2 * β + Δ)) * (((0 : Nat) : ℝ) + 1) := by push_cast; linarith
    exact_mod_cast this
  | @move d i j hh hj ho ih =>
    intro hf
    have hjN := FMM.nbr_lt X.fits hh.lt hj
    have hmono : (w + (θ + 2 * β + Δ)) * ((d : ℝ) + 1) ≤ (w + (θ + 2 * β + Δ)) * (((d + 1 : Nat) : ℝ) + 1) :=
      mul_le_mul_of_nonneg_left (by push_cast; linarith) (by linarith)
    by_cases hif : st i = .frozen
    · by_cases hjp : j ∈ pts
      · have := hmin j hjN hf
        rw [(A.ini j hjp).1, zero_add] at this
        refine le_trans this ?_
        have h2 : (w + (θ + 2 * β + Δ)) * 1 ≤ (w + (θ + 2 * β + Δ)) * (((d + 1 : Nat) : ℝ) + 1) :=
          mul_le_mul_of_nonneg_left (by have : (0:ℝ) ≤ ((d + 1 : Nat) : ℝ) := Nat.cast_nonneg _; linarith) (by linarith)
        have h3 : θ + 2 * β + Δ ≤ (w + (θ + 2 * β + Δ)) * (((d + 1 : Nat) : ℝ) + 1) := by linarith
        exact_mod_cast h3
      · have hn : st j = .narrow := by
          rcases A.closed i j hif hj ho hjp with h1 | h1
          · exact absurd h1 hf
          · exact h1
        have h1 := A.n1 j hn i (nbrs_symm X.fits hh.lt hj) hif
        have h2 := le_trans h1 (coe_add_le (A.dist i d hif hh))
        refine le_trans (hmin j hjN hf) (le_trans (coe_add_le h2) ?_)
        have : (w + (θ + 2 * β + Δ)) * ((d : ℝ) + 1) + w + (θ + 2 * β + Δ) ≤ (w + (θ + 2 * β + Δ)) * (((d + 1 : Nat) : ℝ) + 1) := by
          push_cast; linarith
        exact_mod_cast this
    · refine le_trans (ih hif) ?_
      exact_mod_cast hmono

/-- popping `x`; `Θ` may be raised when no cell that is not frozen is below the new one -/
theorem VInv.pop (X : XInput dims g h v pts) {θ β Δ w L Θ₀ T st heap} (hΔ : 0 ≤ Δ) (P : X.Par θ β w L) (A : X.VInv θ β Δ w L Θ₀ T st heap) {x : Nat} (hx : x ∈ heap)
    {Θ : ℝ} (hΘ : Θ₀ ≤ Θ) (hor : Θ = Θ₀ ∨ ∀ k, k < dims.prod → st k ≠ .frozen → (Θ : WithTop ℝ) ≤ T k) (hTx : T x ≤ ((Θ + Δ : ℝ) : WithTop ℝ))
    (hini' : x ∈ pts ∨ ∀ k ∈ pts, st k = .frozen) :
    X.VMid θ β Δ w L Θ x ((Shape.mk' dims).nbrs x) T (fun k => if k = x then .frozen else st k) (heap.erase x) := by
  classical
  have hxN := A.heapN x hx
  have hβ := P.β0
  have hθ := P.θ0
  have hersub : ∀ y, y ∈ heap.erase x → y ∈ heap := fun y hy => List.mem_of_mem_erase hy
  have her : ∀ k, k ≠ x → k ∈ heap → k ∈ heap.erase x := fun k hk hks => (List.mem_erase_of_ne hk).2 hks
  have hEn : (0 : WithTop ℝ) ≤ ((θ + 2 * β : ℝ) : WithTop ℝ) := by
    have : 0 ≤ θ + 2 * β := by linarith
    exact_mod_cast this
  have nfge : ∀ k, k < dims.prod → st k ≠ .frozen → (Θ : WithTop ℝ) ≤ T k + ((θ + 2 * β : ℝ) : WithTop ℝ) := by
    intro k hk hkf
    rcases hor with h1 | h1
    · rw [h1]; exact A.nfge k hk hkf
    · exact le_trans (h1 k hk hkf) (le_add_of_nonneg_right hEn)
  have fzle : ∀ i, st i = .frozen → T i ≤ ((Θ + Δ : ℝ) : WithTop ℝ) := fun i hi => le_trans (A.fzle i hi) (by
    have : Θ₀ + Δ ≤ Θ + Δ := by linarith
    exact_mod_cast this)
  -- the residual of the cells frozen so far
  have i3 : ∀ k, st k ≠ .frozen → k < dims.prod → g.occ k = false → k ∉ pts → ∀ Y : ℝ, Y + (θ + 2 * β) < Θ →
      residL Y (mins (Shape.mk' dims) (Tf T st) k) < (h / v k - θ)^2 := by
    intro k hkf hk hok hkp Y hY
    rcases hor with h1 | h1
    · exact A.i3 k hkf hk hok hkp Y (by linarith)
    · by_contra hcon
      have hcon := not_lt.1 hcon
      have hθc := P.θc k hk hok
      have h2 : (h / v k)^2 ≤ residL (Y + θ) (mins (Shape.mk' dims) (Tf T st) k) := by
        have := residL_grow (by linarith) hθ hcon
        have e : h / v k - θ + θ = h / v k := by ring
        rwa [e] at this
      have hnar : st k = .narrow := by
        obtain ⟨t, ht, _⟩ := residL_pos_lt (lt_of_lt_of_le (by have := X.csq hk hok; linarith) h2)
        obtain ⟨a, ha, hae⟩ := mem_mins ht WithTop.coe_ne_top
        have haf : st a = .frozen := by
          unfold Tf at hae
          by_contra hh
          rw [if_neg hh] at hae
          exact WithTop.coe_ne_top hae
        rcases A.closed a k haf (nbrs_symm X.fits hk ha) hok hkp with h3 | h3
        · exact absurd h3 hkf
        · exact h3
      have h3 := le_trans (h1 k hk hkf) (A.i2n k hnar _ h2)
      have h4 : Θ ≤ Y + θ + 2 * β := by exact_mod_cast h3
      linarith
  by_cases hfx : st x = .frozen
  · have hst : (fun k => if k = x then FMState.frozen else st k) = st := by
      funext k; split
      · next hk => rw [hk, hfx]
      · rfl
    rw [hst]
    refine { nn := A.nn, heapN := fun y hy => A.heapN y (hersub y hy), fzN := A.fzN, finF := A.finF, finH := fun y hy => A.finH y (hersub y hy),
             heapK := fun y hy => A.heapK y (hersub y hy), nar := ?_, opn := A.opn, ini := ?_, pos := A.pos, bnd := A.bnd, rch := ?_, dist := A.dist,
             fzle := fzle, nfge := nfge, i2f := A.i2f, i3 := i3, fx := hfx, ini' := hini', closed := fun i j hi _ => A.closed i j hi,
             i2n := fun k hk _ => A.i2n k hk, n1 := fun k hk _ => A.n1 k hk }
    · intro k hk
      have := A.nar k hk
      exact ⟨her k (by rintro rfl; rw [hfx] at hk; cases hk) this.1, this.2⟩
    · intro k hk
      refine ⟨(A.ini k hk).1, ?_⟩
      by_cases hkx : k = x
      · left; rw [hkx]; exact hfx
      · rcases (A.ini k hk).2 with h1 | h1
        · exact Or.inl h1
        · exact Or.inr (her k hkx h1)
    · intro k hk
      apply A.rch
      rcases hk with h1 | h1
      · exact Or.inl h1
      · exact Or.inr (hersub k h1)
  · have e : ∀ k, k ≠ x → (if k = x then FMState.frozen else st k) = st k := fun k hk => if_neg hk
    have fz : ∀ k, (if k = x then FMState.frozen else st k) = .frozen ↔ st k = .frozen ∨ k = x := by
      intro k; split
      · next hk => simp [hk]
      · next hk => simp [hk]
    have hxn := nfge x hxN hfx
    have hmin : ∀ y, y < dims.prod → st y ≠ .frozen → T x ≤ T y + ((θ + 2 * β + Δ : ℝ) : WithTop ℝ) := by
      intro y hy hyf
      have h1 := nfge y hy hyf
      cases hTy : T y with
      | top => simp
      | coe t =>
        rw [hTy] at h1
        have h2 : Θ ≤ t + (θ + 2 * β) := by exact_mod_cast h1
        refine le_trans hTx ?_
        have h3 : Θ + Δ ≤ t + (θ + 2 * β + Δ) := by linarith
        exact_mod_cast h3
    -- the residual below T x does not see x
    have hres : ∀ (Y : ℝ) k, (Y : WithTop ℝ) ≤ T x → residL Y (mins (Shape.mk' dims) (Tf T (fun k => if k = x then .frozen else st k)) k) ≤
        residL Y (mins (Shape.mk' dims) (Tf T st) k) := by
      intro Y k hY
      apply X.residL_mins_le_of
      intro a _ hlt
      by_cases hax : a = x
      · exfalso
        subst hax
        unfold Tf at hlt
        rw [if_pos (by simp)] at hlt
        exact absurd (lt_of_le_of_lt hY hlt) (lt_irrefl _)
      · unfold Tf; simp [hax]
    -- cells that are not neighbours of x
    have hsame : ∀ k, k < dims.prod → k ∉ (Shape.mk' dims).nbrs x → mins (Shape.mk' dims) (Tf T (fun k => if k = x then .frozen else st k)) k =
        mins (Shape.mk' dims) (Tf T st) k := by
      intro k hkN hk
      unfold mins
      apply List.map_congr_left
      intro d hd
      unfold dimMin
      congr 1
      apply List.map_congr_left
      intro a ha
      have : a ≠ x := by
        rintro rfl
        exact hk (nbrs_symm X.fits hkN (mem_nbrs.2 ⟨d, List.mem_range.1 hd, ha⟩))
      unfold Tf; simp [this]
    refine { nn := A.nn, heapN := fun y hy => A.heapN y (hersub y hy), fzN := ?_, finF := ?_, finH := fun y hy => A.finH y (hersub y hy),
             heapK := ?_, nar := ?_, opn := ?_, ini := ?_, pos := A.pos, bnd := A.bnd, rch := ?_, dist := ?_,
             fzle := ?_, nfge := ?_, i2f := ?_, i3 := ?_, fx := by simp, ini' := ?_, closed := ?_, i2n := ?_, n1 := ?_ }
    · intro k hk
      rcases (fz k).1 hk with h1 | rfl
      · exact A.fzN k h1
      · exact hxN
    · intro k hk
      rcases (fz k).1 hk with h1 | rfl
      · exact A.finF k h1
      · exact A.finH k hx
    · intro y hy
      by_cases hyx : y = x
      · left; simp [hyx]
      · rw [e y hyx]; exact A.heapK y (hersub y hy)
    · intro k hk
      by_cases hkx : k = x
      · simp [hkx] at hk
      · rw [e k hkx] at hk
        have := A.nar k hk
        exact ⟨her k hkx this.1, this.2⟩
    · intro k hk hkp
      by_cases hkx : k = x
      · simp [hkx] at hk
      · rw [e k hkx] at hk; exact A.opn k hk hkp
    · intro k hk
      refine ⟨(A.ini k hk).1, ?_⟩
      by_cases hkx : k = x
      · left; simp [hkx]
      · rw [e k hkx]
        rcases (A.ini k hk).2 with h1 | h1
        · exact Or.inl h1
        · exact Or.inr (her k hkx h1)
    · intro k hk
      apply A.rch
      rcases hk with h1 | h1
      · rcases (fz k).1 h1 with h2 | rfl
        · exact Or.inl h2
        · exact Or.inr hx
      · exact Or.inr (hersub k h1)
    · intro i d hi hh
      rcases (fz i).1 hi with h1 | rfl
      · exact A.dist i d h1 hh
      · exact A.pop_dist X hΔ P hmin d i hh hfx
    · intro i hi
      rcases (fz i).1 hi with h1 | rfl
      · exact fzle i h1
      · exact hTx
    · intro k hk hkf
      exact nfge k hk (fun hh => hkf ((fz k).2 (Or.inl hh)))
    · intro k hk hkp Y hY
      by_cases hkx : k = x
      · subst hkx
        have hnar : st k = .narrow := by
          rcases A.heapK k hx with h1 | h1 | h1
          · exact absurd h1 hfx
          · exact h1
          · exact absurd h1 hkp
        rw [hsame k hxN (nbrs_irrefl X.fits hxN)] at hY
        refine le_trans (A.i2n k hnar Y hY) ?_
        have : Y + 2 * β ≤ Y + (θ + 2 * β + Δ) := by linarith
        exact_mod_cast this
      · have hkf : st k = .frozen := by
          rcases (fz k).1 hk with h1 | h1
          · exact h1
          · exact absurd h1 hkx
        by_cases hYx : (Y : WithTop ℝ) ≤ T x
        · exact A.i2f k hkf hkp Y (le_trans hY (hres Y k hYx))
        · have h1 := le_trans hxn (coe_add_le (not_le.1 hYx).le)
          have h2 : Θ ≤ Y + (θ + 2 * β) := by exact_mod_cast h1
          refine le_trans (fzle k hkf) ?_
          have h3 : Θ + Δ ≤ Y + (θ + 2 * β + Δ) := by linarith
          exact_mod_cast h3
    · intro k hkf hk hok hkp Y hY
      have hkf' : st k ≠ .frozen := fun hh => hkf ((fz k).2 (Or.inl hh))
      have hYx : (Y : WithTop ℝ) ≤ T x := by
        by_contra hcon
        have h1 := le_trans hxn (coe_add_le (not_le.1 hcon).le)
        have h2 : Θ ≤ Y + (θ + 2 * β) := by exact_mod_cast h1
        linarith
      exact lt_of_le_of_lt (hres Y k hYx) (i3 k hkf' hk hok hkp Y hY)
    · rcases hini' with h1 | h1
      · exact Or.inl h1
      · right; intro k hk; exact (fz k).2 (Or.inl (h1 k hk))
    · intro i j hi hor hj ho hp
      have hix : i ≠ x := by
        rintro rfl
        rcases hor with h1 | h1
        · exact h1 rfl
        · exact h1 hj
      rw [e i hix] at hi
      by_cases hjx : j = x
      · left; simp [hjx]
      · rw [e j hjx]; exact A.closed i j hi hj ho hp
    · intro k hk hkn Y hY
      have hkx : k ≠ x := by rintro rfl; simp at hk
      rw [e k hkx] at hk
      rw [hsame k (A.heapN k (A.nar k hk).1) hkn] at hY
      exact A.i2n k hk Y hY
    · intro k hk hkn q hq hqf
      have hkx : k ≠ x := by rintro rfl; simp at hk
      rw [e k hkx] at hk
      have hkN := A.heapN k (A.nar k hk).1
      rcases (fz q).1 hqf with h1 | rfl
      · exact A.n1 k hk q hq h1
      · exact absurd (nbrs_symm X.fits hkN hq) hkn

end XInput
end FMV
