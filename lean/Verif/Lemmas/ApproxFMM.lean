import Verif.Lemmas.Approx
import Verif.Lemmas.FMMExact
/-! Invariants of FMM with an approximate local solver and an approximate acceptance test. -/
set_option linter.unusedSectionVars false
set_option linter.unusedVariables false
namespace FMV
open Spec Shape XR FMM

namespace XInput
variable {dims : List Nat} {g : Grid XR} {h : ℝ} {v : Nat → ℝ} {pts : List Nat}

/-- the residual only depends on times below the point where it is taken -/
theorem residL_mins_le_of (X : XInput dims g h v pts) {Y : ℝ} {S S' : Nat → WithTop ℝ} {k : Nat}
    (hh : ∀ a ∈ (Shape.mk' dims).nbrs k, S a < (Y : WithTop ℝ) → S' a ≤ S a) :
    residL Y (mins (Shape.mk' dims) S k) ≤ residL Y (mins (Shape.mk' dims) S' k) := by
  unfold mins
  apply residL_le_map
  intro d hd
  rcases lt_or_ge (dimMin (Shape.mk' dims) S k d) (Y : WithTop ℝ) with hlt | hge
  · apply posSq_anti
    obtain ⟨a, ha, he⟩ := dimMin_attained (ne_top_of_lt hlt)
    rw [he] at hlt ⊢
    exact le_trans (dimMin_le ha) (hh a (mem_nbrs.2 ⟨d, List.mem_range.1 hd, ha⟩) hlt)
  · rw [posSq_eq_zero hge]; exact posSq_nonneg _ _

/-- reachable in `d` moves -/
inductive Hops (X : XInput dims g h v pts) : Nat → Nat → Prop
  | start {i} : i ∈ pts → Hops X 0 i
  | move {d i j} : Hops X d i → j ∈ (Shape.mk' dims).nbrs i → g.occ j = false → Hops X (d + 1) j

theorem Hops.lt {X : XInput dims g h v pts} {d i : Nat} (hh : X.Hops d i) : i < dims.prod := by
  induction hh with
  | start hi => exact X.inside _ hi
  | move _ hj _ ih => exact FMM.nbr_lt X.fits ih hj

/-- error parameters: `θ` residual error of an update, `β` its excess and that of the acceptance test, `w` bound on the time gained by one move,
`L` number of moves within which every reachable cell is reached -/
structure Par (X : XInput dims g h v pts) (θ β w : ℝ) (L : Nat) : Prop where
  θ0 : 0 ≤ θ
  β0 : 0 ≤ β
  w0 : 0 ≤ w
  θc : ∀ i, i < dims.prod → g.occ i = false → θ < h / v i
  cw : ∀ i, i < dims.prod → g.occ i = false → h / v i + 2 * β ≤ w
  hops : ∀ i, (∃ d, X.Hops d i) → ∃ d, d ≤ L ∧ X.Hops d i

structure QBase (X : XInput dims g h v pts) (θ β w : ℝ) (L : Nat) (T : Nat → WithTop ℝ) (st : Nat → FMState) (heap : List Nat) : Prop where
  nn : ∀ k, 0 ≤ T k
  heapN : ∀ y ∈ heap, y < dims.prod
  fzN : ∀ k, st k = .frozen → k < dims.prod
  finF : ∀ k, st k = .frozen → T k ≠ ⊤
  finH : ∀ y ∈ heap, T y ≠ ⊤
  heapK : ∀ y ∈ heap, st y = .frozen ∨ st y = .narrow ∨ y ∈ pts
  nar : ∀ k, st k = .narrow → k ∈ heap ∧ g.occ k = false ∧ k ∉ pts
  opn : ∀ k, st k = .opn → k ∉ pts → T k = ⊤
  ini : ∀ k ∈ pts, T k = 0 ∧ (st k = .frozen ∨ k ∈ heap)
  pos : ∀ k, k ∉ pts → 0 < T k
  bnd : ∀ k (r : ℝ), T k = (r : WithTop ℝ) → r ≤ w * (L + 1)
  rch : ∀ k, st k = .frozen ∨ k ∈ heap → ∃ d, X.Hops d k
  dist : ∀ i d, st i = .frozen → X.Hops d i → T i ≤ ((w * d : ℝ) : WithTop ℝ)
  i1 : ∀ i k, st i = .frozen → k < dims.prod → st k ≠ .frozen → T i ≤ T k + ((θ + 2 * β : ℝ) : WithTop ℝ)
  i2f : ∀ k, st k = .frozen → k ∉ pts → ∀ Y : ℝ, (h / v k)^2 ≤ residL Y (mins (Shape.mk' dims) (Tf T st) k) → T k ≤ ((Y + (θ + 2 * β) : ℝ) : WithTop ℝ)
  i3 : ∀ i k, st i = .frozen → st k ≠ .frozen → k < dims.prod → g.occ k = false → k ∉ pts → ∀ Y : ℝ, ((Y + (θ + 2 * β) : ℝ) : WithTop ℝ) < T i →
    residL Y (mins (Shape.mk' dims) (Tf T st) k) < (h / v k - θ)^2

structure QInv (X : XInput dims g h v pts) (θ β w : ℝ) (L : Nat) (T : Nat → WithTop ℝ) (st : Nat → FMState) (heap : List Nat) : Prop
    extends QBase X θ β w L T st heap where
  closed : ∀ i j, st i = .frozen → j ∈ (Shape.mk' dims).nbrs i → g.occ j = false → j ∉ pts → st j = .frozen ∨ st j = .narrow
  i2n : ∀ k, st k = .narrow → ∀ Y : ℝ, (h / v k)^2 ≤ residL Y (mins (Shape.mk' dims) (Tf T st) k) → T k ≤ ((Y + 2 * β : ℝ) : WithTop ℝ)
  n1 : ∀ k, st k = .narrow → ∀ q ∈ (Shape.mk' dims).nbrs k, st q = .frozen → T k ≤ T q + (w : WithTop ℝ)

structure QMid (X : XInput dims g h v pts) (θ β w : ℝ) (L : Nat) (x : Nat) (todo : List Nat) (T : Nat → WithTop ℝ) (st : Nat → FMState)
    (heap : List Nat) : Prop extends QBase X θ β w L T st heap where
  fx : st x = .frozen
  ini' : x ∈ pts ∨ ∀ k ∈ pts, st k = .frozen
  closed : ∀ i j, st i = .frozen → (i ≠ x ∨ j ∉ todo) → j ∈ (Shape.mk' dims).nbrs i → g.occ j = false → j ∉ pts → st j = .frozen ∨ st j = .narrow
  i2n : ∀ k, st k = .narrow → k ∉ todo → ∀ Y : ℝ, (h / v k)^2 ≤ residL Y (mins (Shape.mk' dims) (Tf T st) k) → T k ≤ ((Y + 2 * β : ℝ) : WithTop ℝ)
  n1 : ∀ k, st k = .narrow → k ∉ todo → ∀ q ∈ (Shape.mk' dims).nbrs k, st q = .frozen → T k ≤ T q + (w : WithTop ℝ)

theorem QMid.done (X : XInput dims g h v pts) {θ β w L x T st heap} (m : X.QMid θ β w L x [] T st heap) : X.QInv θ β w L T st heap :=
  { toQBase := m.toQBase
    closed := fun i j hi hj ho hp => m.closed i j hi (Or.inr (by simp)) hj ho hp
    i2n := fun k hk => m.i2n k hk (by simp)
    n1 := fun k hk => m.n1 k hk (by simp) }

theorem QMid.skip (X : XInput dims g h v pts) {θ β w L x j T st heap} {rest : List Nat} (m : X.QMid θ β w L x (j :: rest) T st heap)
    (hsk : st j = .frozen ∨ g.occ j = true) : X.QMid θ β w L x rest T st heap :=
  have hne : ∀ k, st k = .narrow → k ≠ j := by
    rintro k hk rfl
    rcases hsk with h1 | h1
    · rw [hk] at h1; cases h1
    · rw [(m.nar k hk).2.1] at h1; cases h1
  { toQBase := m.toQBase
    fx := m.fx
    ini' := m.ini'
    closed := by
      intro i k hi hor hk ho hp
      by_cases hkj : k = j
      · subst hkj
        rcases hsk with h1 | h1
        · exact Or.inl h1
        · rw [ho] at h1; cases h1
      · apply m.closed i k hi _ hk ho hp
        rcases hor with h1 | h1
        · exact Or.inl h1
        · right; simp [hkj, h1]
    i2n := fun k hk hkr => m.i2n k hk (by simp [hne k hk, hkr])
    n1 := fun k hk hkr => m.n1 k hk (by simp [hne k hk, hkr]) }

theorem QMid.not_init (X : XInput dims g h v pts) (hna : X.NonAdj) {θ β w L x T st heap} {todo : List Nat} (m : X.QMid θ β w L x todo T st heap) {j : Nat}
    (hj : j ∈ (Shape.mk' dims).nbrs x) (ho : g.occ j = false) (hnf : st j ≠ .frozen) : j ∉ pts := by
  intro hp
  rcases m.ini' with h1 | h1
  · exact hna j hp ho x (nbrs_symm X.fits (m.fzN x m.fx) hj) h1
  · exact hnf (h1 j hp)

theorem coe_add_le {a : WithTop ℝ} {r t : ℝ} (h : a ≤ (r : WithTop ℝ)) : a + (t : WithTop ℝ) ≤ ((r + t : ℝ) : WithTop ℝ) := by
  have : ((r + t : ℝ) : WithTop ℝ) = (r : WithTop ℝ) + (t : WithTop ℝ) := rfl
  rw [this]; gcongr

theorem QMid.update (X : XInput dims g h v pts) (hna : X.NonAdj) {θ β w L x j T st heap} (P : X.Par θ β w L) {rest : List Nat}
    (m : X.QMid θ β w L x (j :: rest) T st heap) (hj : j ∈ (Shape.mk' dims).nbrs x) (hjr : j ∉ rest) (ho : g.occ j = false)
    (hnf : st j ≠ .frozen) {T' : Nat → WithTop ℝ} {st' : Nat → FMState} {heap' : List Nat}
    (hst : ∀ k, st' k = if k = j then .narrow else st k) (hheap : ∀ y, y ∈ heap' ↔ y ∈ heap ∨ y = j)
    {s : WithTop ℝ} (hs : Apr (h / v j) θ β (T j) (mins (Shape.mk' dims) T j) s) (hT1 : ∀ k, k ≠ j → T' k = T k)
    (hT2 : (T' j = s ∧ (st j = .opn ∨ s < T j)) ∨ (st j = .narrow ∧ T' j = T j ∧ T j ≤ s + (β : WithTop ℝ))) :
    X.QMid θ β w L x rest T' st' heap' := by
  have hxN := m.fzN x m.fx
  have hjN : j < dims.prod := FMM.nbr_lt X.fits hxN hj
  have hjp := m.not_init X hna hj ho hnf
  have hc := X.cpos hjN ho
  have hθc := P.θc j hjN ho
  have hβ := P.β0
  have hθ := P.θ0
  have hcw := P.cw j hjN ho
  have fz : ∀ k, st' k = .frozen ↔ st k = .frozen := by
    intro k; rw [hst]; split
    · next hk => rw [hk]; constructor
                 · intro hh; cases hh
                 · intro hh; exact absurd hh hnf
    · rfl
  have Tfz : ∀ k, st k = .frozen → T' k = T k := fun k hk => hT1 k (by rintro rfl; exact hnf hk)
  have hopT : st j = .opn → T j = ⊤ := fun h1 => m.opn j h1 hjp
  have hTj : T' j ≤ T j := by
    rcases hT2 with ⟨e, h1 | h1⟩ | ⟨_, e, _⟩
    · rw [hopT h1]; exact le_top
    · rw [e]; exact h1.le
    · exact le_of_eq e
  have hTj2 : T' j ≤ s + (β : WithTop ℝ) := by
    have hb : (0 : WithTop ℝ) ≤ (β : WithTop ℝ) := by exact_mod_cast hβ
    rcases hT2 with ⟨e, _⟩ | ⟨_, e, h1⟩
    · rw [e]; exact le_add_of_nonneg_right hb
    · rw [e]; exact h1
  have hTfe : Tf T' st' = Tf T st := Tf_congr fz Tfz
  -- order
  have hord : ∀ i, st i = .frozen → T i ≤ T' j + ((θ + 2 * β : ℝ) : WithTop ℝ) := by
    intro i hi
    rcases hT2 with ⟨e, h1⟩ | ⟨_, e, _⟩
    · by_contra hcon
      have hcon := not_le.1 hcon
      rw [e] at hcon
      cases hs' : s with
      | top => rw [hs'] at hcon; simp at hcon
      | coe u =>
        rw [hs'] at hcon
        have h2 := hs.lower u hs'
        have h3 := m.i3 i j hi hnf hjN ho hjp u (by exact_mod_cast hcon)
        have h4 := X.residL_mins_le_of (Y := u) (S := T) (S' := Tf T st) (k := j) (by
          intro a ha hlt
          unfold Tf
          split
          · exact le_refl _
          · next hnfa =>
            exfalso
            have h5 := m.i1 i a hi (FMM.nbr_lt X.fits hjN ha) hnfa
            have h6 : T a + ((θ + 2 * β : ℝ) : WithTop ℝ) ≤ ((u + (θ + 2 * β) : ℝ) : WithTop ℝ) := coe_add_le hlt.le
            exact absurd (lt_of_lt_of_le hcon (le_trans h5 h6)) (lt_irrefl _))
        linarith
    · rw [e]; exact m.i1 i j hi hjN hnf
  have hposj : 0 < T' j := by
    rcases hT2 with ⟨e, h1⟩ | ⟨_, e, _⟩
    · rw [e]
      cases hs' : s with
      | top => simp
      | coe u =>
        have h2 := hs.lower u hs'
        have h3 : 0 < (h / v j - θ)^2 := by
          have : 0 < h / v j - θ := by linarith
          positivity
        obtain ⟨t, ht, htu⟩ := residL_pos_lt (lt_of_lt_of_le h3 h2)
        have h0 : (0:ℝ) ≤ t := by exact_mod_cast mins_nn m.nn j _ ht
        exact_mod_cast lt_of_le_of_lt h0 htu
    · rw [e]; exact m.pos j hjp
  -- one move from any frozen neighbour
  have hn1 : ∀ q ∈ (Shape.mk' dims).nbrs j, st q = .frozen → T' j ≤ T q + (w : WithTop ℝ) := by
    intro q hq hqf
    obtain ⟨mm, hmm, hle⟩ := mins_le (T := T) hq
    have hw0 : (0 : WithTop ℝ) ≤ (w : WithTop ℝ) := by exact_mod_cast P.w0
    cases hmt : mm with
    | top => rw [hmt] at hle; exact absurd (top_le_iff.1 hle) (m.finF q hqf)
    | coe t =>
      rw [hmt] at hle hmm
      by_cases hlt : (t : WithTop ℝ) < T j
      · have h1 := hs.near t hmm hlt
        have h2 : T' j ≤ ((t + (h / v j + β) + β : ℝ) : WithTop ℝ) := le_trans hTj2 (coe_add_le h1)
        refine le_trans h2 ?_
        have h3 : ((t + w : ℝ) : WithTop ℝ) ≤ T q + (w : WithTop ℝ) := by
          have : ((t + w : ℝ) : WithTop ℝ) = (t : WithTop ℝ) + (w : WithTop ℝ) := rfl
          rw [this]; gcongr
        refine le_trans ?_ h3
        have : t + (h / v j + β) + β ≤ t + w := by linarith
        exact_mod_cast this
      · exact le_trans hTj (le_trans (not_lt.1 hlt) (le_trans hle (le_add_of_nonneg_right hw0)))
  have hxj := nbrs_symm X.fits hxN hj
  have hfinj : T' j ≠ ⊤ := by
    have h1 := hn1 x hxj m.fx
    cases hTx : T x with
    | top => exact absurd hTx (m.finF x m.fx)
    | coe t =>
      rw [hTx] at h1
      intro htop
      rw [htop] at h1
      have : ((t : WithTop ℝ) + (w : WithTop ℝ)) = ((t + w : ℝ) : WithTop ℝ) := rfl
      rw [this] at h1
      exact WithTop.coe_ne_top (top_le_iff.1 h1)
  have hTle : ∀ k, T' k ≤ T k := by
    intro k
    by_cases hk : k = j
    · rw [hk]; exact hTj
    · exact le_of_eq (hT1 k hk)
  refine { nn := ?_, heapN := ?_, fzN := ?_, finF := ?_, finH := ?_, heapK := ?_, nar := ?_, opn := ?_, ini := ?_, pos := ?_, bnd := ?_, rch := ?_,
           dist := ?_, i1 := ?_, i2f := ?_, i3 := ?_, fx := ?_, ini' := ?_, closed := ?_, i2n := ?_, n1 := ?_ }
  · intro k
    by_cases hk : k = j
    · rw [hk]; exact hposj.le
    · rw [hT1 k hk]; exact m.nn k
  · intro y hy
    rcases (hheap y).1 hy with h1 | rfl
    · exact m.heapN y h1
    · exact hjN
  · intro k hk; exact m.fzN k ((fz k).1 hk)
  · intro k hk; rw [Tfz k ((fz k).1 hk)]; exact m.finF k ((fz k).1 hk)
  · intro y hy
    by_cases hyj : y = j
    · rw [hyj]; exact hfinj
    · rcases (hheap y).1 hy with h1 | h1
      · rw [hT1 y hyj]; exact m.finH y h1
      · exact absurd h1 hyj
  · intro y hy
    by_cases hyj : y = j
    · right; left; rw [hst, if_pos hyj]
    · rcases (hheap y).1 hy with h1 | h1
      · rw [hst, if_neg hyj]; exact m.heapK y h1
      · exact absurd h1 hyj
  · intro k hk
    by_cases hkj : k = j
    · subst hkj; exact ⟨(hheap k).2 (Or.inr rfl), ho, hjp⟩
    · rw [hst, if_neg hkj] at hk
      have := m.nar k hk
      exact ⟨(hheap k).2 (Or.inl this.1), this.2⟩
  · intro k hk hkp
    by_cases hkj : k = j
    · rw [hst, if_pos hkj] at hk; cases hk
    · rw [hst, if_neg hkj] at hk
      rw [hT1 k hkj]; exact m.opn k hk hkp
  · intro k hk
    have hkj : k ≠ j := by rintro rfl; exact hjp hk
    rw [hT1 k hkj]
    refine ⟨(m.ini k hk).1, ?_⟩
    rcases (m.ini k hk).2 with h1 | h1
    · exact Or.inl ((fz k).2 h1)
    · exact Or.inr ((hheap k).2 (Or.inl h1))
  · intro k hk
    by_cases hkj : k = j
    · rw [hkj]; exact hposj
    · rw [hT1 k hkj]; exact m.pos k hk
  · -- bound
    intro k r hk
    by_cases hkj : k = j
    · rw [hkj] at hk
      have h1 := hn1 x hxj m.fx
      obtain ⟨d, hd, hh⟩ := P.hops x (m.rch x (Or.inl m.fx))
      have h2 := m.dist x d m.fx hh
      have h3 : T' j ≤ ((w * d + w : ℝ) : WithTop ℝ) := le_trans h1 (coe_add_le h2)
      rw [hk] at h3
      have h4 : r ≤ w * d + w := by exact_mod_cast h3
      have h5 : (d:ℝ) ≤ L := by exact_mod_cast hd
      have := mul_le_mul_of_nonneg_left h5 P.w0
      linarith
    · rw [hT1 k hkj] at hk; exact m.bnd k r hk
  · intro k hk
    by_cases hkj : k = j
    · obtain ⟨d, hh⟩ := m.rch x (Or.inl m.fx)
      rw [hkj]
      exact ⟨d + 1, .move hh hj ho⟩
    · apply m.rch k
      rcases hk with h1 | h1
      · exact Or.inl ((fz k).1 h1)
      · rcases (hheap k).1 h1 with h2 | h2
        · exact Or.inr h2
        · exact absurd h2 hkj
  · intro i d hi hh
    rw [Tfz i ((fz i).1 hi)]; exact m.dist i d ((fz i).1 hi) hh
  · intro i k hi hk hkf
    rw [Tfz i ((fz i).1 hi)]
    by_cases hkj : k = j
    · rw [hkj]; exact hord i ((fz i).1 hi)
    · rw [hT1 k hkj]; exact m.i1 i k ((fz i).1 hi) hk (fun hh => hkf ((fz k).2 hh))
  · intro k hk hkp Y hY
    rw [hTfe] at hY
    rw [Tfz k ((fz k).1 hk)]
    exact m.i2f k ((fz k).1 hk) hkp Y hY
  · intro i k hi hkf hk hok hkp Y hY
    rw [hTfe]
    rw [Tfz i ((fz i).1 hi)] at hY
    exact m.i3 i k ((fz i).1 hi) (fun hh => hkf ((fz k).2 hh)) hk hok hkp Y hY
  · exact (fz x).2 m.fx
  · rcases m.ini' with h1 | h1
    · exact Or.inl h1
    · right; intro k hk; exact (fz k).2 (h1 k hk)
  · intro i k hi hor hk hok hkp
    by_cases hkj : k = j
    · right; rw [hst, if_pos hkj]
    · have := m.closed i k ((fz i).1 hi) (by
        rcases hor with h1 | h1
        · exact Or.inl h1
        · right; simp [hkj, h1]) hk hok hkp
      rw [hst, if_neg hkj]; exact this
  · intro k hk hkr Y hY
    rw [hTfe] at hY
    by_cases hkj : k = j
    · subst hkj
      by_cases hlt : (Y : WithTop ℝ) < T k
      · have h1 := hs.upper Y hlt (le_trans hY (X.residL_mins_le_of (fun a ha _ => by
          unfold Tf; split
          · exact le_refl _
          · exact le_top)))
        refine le_trans hTj2 (le_trans (coe_add_le h1) ?_)
        have : Y + β + β ≤ Y + 2 * β := by linarith
        exact_mod_cast this
      · refine le_trans hTj (le_trans (not_lt.1 hlt) ?_)
        have : Y ≤ Y + 2 * β := by linarith
        exact_mod_cast this
    · rw [hst, if_neg hkj] at hk
      rw [hT1 k hkj]
      exact m.i2n k hk (by simp [hkj, hkr]) Y hY
  · intro k hk hkr q hq hqf
    rw [Tfz q ((fz q).1 hqf)]
    by_cases hkj : k = j
    · subst hkj; exact hn1 q hq ((fz q).1 hqf)
    · rw [hst, if_neg hkj] at hk
      rw [hT1 k hkj]
      exact m.n1 k hk (by simp [hkj, hkr]) q hq ((fz q).1 hqf)

/-- the popped cell is no further than its graph distance allows -/
theorem QInv.pop_dist (X : XInput dims g h v pts) {θ β w L T st heap} (P : X.Par θ β w L) (A : X.QInv θ β w L T st heap) {x : Nat}
    (hmin : ∀ y ∈ heap, T x ≤ T y) : ∀ d i, X.Hops d i → st i ≠ .frozen → T x ≤ ((w * d : ℝ) : WithTop ℝ) := by
  intro d i hh
  induction hh with
  | @start i hi =>
    intro hf
    rcases (A.ini i hi).2 with h1 | h1
    · exact absurd h1 hf
    · refine le_trans (hmin i h1) ?_
      rw [(A.ini i hi).1]; simp
  | @move d i j hh hj ho ih =>
    intro hf
    by_cases hif : st i = .frozen
    · by_cases hjp : j ∈ pts
      · rcases (A.ini j hjp).2 with h1 | h1
        · exact absurd h1 hf
        · refine le_trans (hmin j h1) ?_
          rw [(A.ini j hjp).1]
          have : (0:ℝ) ≤ w * ((d + 1 : Nat) : ℝ) := by have := P.w0; positivity
          exact_mod_cast this
      · have hn : st j = .narrow := by
          rcases A.closed i j hif hj ho hjp with h1 | h1
          · exact absurd h1 hf
          · exact h1
        have h1 := A.n1 j hn i (nbrs_symm X.fits hh.lt hj) hif
        refine le_trans (hmin j (A.nar j hn).1) (le_trans h1 (le_trans (coe_add_le (A.dist i d hif hh)) ?_))
        have : w * (d:ℝ) + w ≤ w * ((d + 1 : Nat) : ℝ) := by push_cast; linarith
        exact_mod_cast this
    · refine le_trans (ih hif) ?_
      have : w * (d:ℝ) ≤ w * ((d + 1 : Nat) : ℝ) := by push_cast; linarith [P.w0]
      exact_mod_cast this

theorem QInv.pop (X : XInput dims g h v pts) {θ β w L T st heap} (P : X.Par θ β w L) (A : X.QInv θ β w L T st heap) {x : Nat} (hx : x ∈ heap)
    (hmin : ∀ y ∈ heap, T x ≤ T y) :
    X.QMid θ β w L x ((Shape.mk' dims).nbrs x) T (fun k => if k = x then .frozen else st k) (heap.erase x) := by
  classical
  have hxN := A.heapN x hx
  have hβ := P.β0
  have hθ := P.θ0
  have hersub : ∀ y, y ∈ heap.erase x → y ∈ heap := fun y hy => List.mem_of_mem_erase hy
  have her : ∀ k, k ≠ x → k ∈ heap → k ∈ heap.erase x := fun k hk hks => (List.mem_erase_of_ne hk).2 hks
  have hini' : x ∈ pts ∨ ∀ k ∈ pts, st k = .frozen := by
    by_cases hp : x ∈ pts
    · exact Or.inl hp
    · right
      intro k hk
      rcases (A.ini k hk).2 with h1 | h1
      · exact h1
      · exfalso
        have h2 := hmin k h1
        rw [(A.ini k hk).1] at h2
        exact absurd (lt_of_lt_of_le (A.pos x hp) h2) (lt_irrefl _)
  by_cases hfx : st x = .frozen
  · have hst : (fun k => if k = x then FMState.frozen else st k) = st := by
      funext k; split
      · next hk => rw [hk, hfx]
      · rfl
    rw [hst]
    refine { nn := A.nn, heapN := fun y hy => A.heapN y (hersub y hy), fzN := A.fzN, finF := A.finF, finH := fun y hy => A.finH y (hersub y hy),
             heapK := fun y hy => A.heapK y (hersub y hy), nar := ?_, opn := A.opn, ini := ?_, pos := A.pos, bnd := A.bnd, rch := ?_, dist := A.dist,
             i1 := A.i1, i2f := A.i2f, i3 := A.i3, fx := hfx, ini' := hini', closed := fun i j hi _ => A.closed i j hi,
             i2n := fun k hk _ => A.i2n k hk, n1 := fun k hk _ => A.n1 k hk }
    · intro k hk
      have := A.nar k hk
      exact ⟨her k (by rintro rfl; rw [hfx] at hk; cases hk) this.1, this.2⟩
    · intro k hk
      refine ⟨(A.ini k hk).1, ?_⟩
      by_cases hkx : k = x
      · left; rw [hkx]; exact hfx
      · rcases (A.ini k hk).2 with h1 | h1
        · exact Or.inl h1
        · exact Or.inr (her k hkx h1)
    · intro k hk
      apply A.rch
      rcases hk with h1 | h1
      · exact Or.inl h1
      · exact Or.inr (hersub k h1)
  · have e : ∀ k, k ≠ x → (if k = x then FMState.frozen else st k) = st k := fun k hk => if_neg hk
    have fz : ∀ k, (if k = x then FMState.frozen else st k) = .frozen ↔ st k = .frozen ∨ k = x := by
      intro k; split
      · next hk => simp [hk]
      · next hk => simp [hk]
    have nfge : ∀ j, j < dims.prod → st j ≠ .frozen → T x ≤ T j := by
      intro j hj hn
      cases hs : st j with
      | frozen => exact absurd hs hn
      | narrow => exact hmin j (A.nar j hs).1
      | opn =>
        by_cases hjp : j ∈ pts
        · rcases (A.ini j hjp).2 with h1 | h1
          · exact absurd h1 hn
          · exact hmin j h1
        · rw [A.opn j hs hjp]; exact le_top
    -- the residual below T x does not see x
    have hres : ∀ (Y : ℝ) k, (Y : WithTop ℝ) ≤ T x → residL Y (mins (Shape.mk' dims) (Tf T (fun k => if k = x then .frozen else st k)) k) ≤
        residL Y (mins (Shape.mk' dims) (Tf T st) k) := by
      intro Y k hY
      apply X.residL_mins_le_of
      intro a _ hlt
      by_cases hax : a = x
      · exfalso
        subst hax
        unfold Tf at hlt
        rw [if_pos (by simp)] at hlt
        exact absurd (lt_of_le_of_lt hY hlt) (lt_irrefl _)
      · unfold Tf; simp [hax]
    -- cells that are not neighbours of x
    have hsame : ∀ k, k < dims.prod → k ∉ (Shape.mk' dims).nbrs x → mins (Shape.mk' dims) (Tf T (fun k => if k = x then .frozen else st k)) k =
        mins (Shape.mk' dims) (Tf T st) k := by
      intro k hkN hk
      unfold mins
      apply List.map_congr_left
      intro d hd
      unfold dimMin
      congr 1
      apply List.map_congr_left
      intro a ha
      have : a ≠ x := by
        rintro rfl
        exact hk (nbrs_symm X.fits hkN (mem_nbrs.2 ⟨d, List.mem_range.1 hd, ha⟩))
      unfold Tf; simp [this]
    refine { nn := A.nn, heapN := fun y hy => A.heapN y (hersub y hy), fzN := ?_, finF := ?_, finH := fun y hy => A.finH y (hersub y hy),
             heapK := ?_, nar := ?_, opn := ?_, ini := ?_, pos := A.pos, bnd := A.bnd, rch := ?_, dist := ?_,
             i1 := ?_, i2f := ?_, i3 := ?_, fx := by simp, ini' := ?_, closed := ?_, i2n := ?_, n1 := ?_ }
    · intro k hk
      rcases (fz k).1 hk with h1 | rfl
      · exact A.fzN k h1
      · exact hxN
    · intro k hk
      rcases (fz k).1 hk with h1 | rfl
      · exact A.finF k h1
      · exact A.finH k hx
    · intro y hy
      by_cases hyx : y = x
      · left; simp [hyx]
      · rw [e y hyx]; exact A.heapK y (hersub y hy)
    · intro k hk
      by_cases hkx : k = x
      · simp [hkx] at hk
      · rw [e k hkx] at hk
        have := A.nar k hk
        exact ⟨her k hkx this.1, this.2⟩
    · intro k hk hkp
      by_cases hkx : k = x
      · simp [hkx] at hk
      · rw [e k hkx] at hk; exact A.opn k hk hkp
    · intro k hk
      refine ⟨(A.ini k hk).1, ?_⟩
      by_cases hkx : k = x
      · left; simp [hkx]
      · rw [e k hkx]
        rcases (A.ini k hk).2 with h1 | h1
        · exact Or.inl h1
        · exact Or.inr (her k hkx h1)
    · intro k hk
      apply A.rch
      rcases hk with h1 | h1
      · rcases (fz k).1 h1 with h2 | rfl
        · exact Or.inl h2
        · exact Or.inr hx
      · exact Or.inr (hersub k h1)
    · intro i d hi hh
      rcases (fz i).1 hi with h1 | rfl
      · exact A.dist i d h1 hh
      · exact A.pop_dist X P hmin d i hh hfx
    · intro i k hi hk hkf
      have hkf' : st k ≠ .frozen := fun hh => hkf ((fz k).2 (Or.inl hh))
      rcases (fz i).1 hi with h1 | rfl
      · exact A.i1 i k h1 hk hkf'
      · have : (0 : WithTop ℝ) ≤ ((θ + 2 * β : ℝ) : WithTop ℝ) := by
          have : 0 ≤ θ + 2 * β := by linarith
          exact_mod_cast this
        exact le_trans (nfge k hk hkf') (le_add_of_nonneg_right this)
    · intro k hk hkp Y hY
      by_cases hkx : k = x
      · subst hkx
        have hnar : st k = .narrow := by
          rcases A.heapK k hx with h1 | h1 | h1
          · exact absurd h1 hfx
          · exact h1
          · exact absurd h1 hkp
        rw [hsame k hxN (nbrs_irrefl X.fits hxN)] at hY
        refine le_trans (A.i2n k hnar Y hY) ?_
        have : Y + 2 * β ≤ Y + (θ + 2 * β) := by linarith
        exact_mod_cast this
      · have hkf : st k = .frozen := by
          rcases (fz k).1 hk with h1 | h1
          · exact h1
          · exact absurd h1 hkx
        by_cases hYx : (Y : WithTop ℝ) ≤ T x
        · exact A.i2f k hkf hkp Y (le_trans hY (hres Y k hYx))
        · exact le_trans (A.i1 k x hkf hxN hfx) (coe_add_le (not_le.1 hYx).le)
    · intro i k hi hkf hk hok hkp Y hY
      have hkf' : st k ≠ .frozen := fun hh => hkf ((fz k).2 (Or.inl hh))
      have hYx : (Y : WithTop ℝ) ≤ T x := by
        rcases (fz i).1 hi with h1 | rfl
        · have h2 := A.i1 i x h1 hxN hfx
          by_contra hcon
          exact absurd (lt_of_lt_of_le hY (le_trans h2 (coe_add_le (not_le.1 hcon).le))) (lt_irrefl _)
        · refine le_trans ?_ hY.le
          have : Y ≤ Y + (θ + 2 * β) := by linarith
          exact_mod_cast this
      refine lt_of_le_of_lt (hres Y k hYx) ?_
      rcases (fz i).1 hi with h1 | rfl
      · exact A.i3 i k h1 hkf' hk hok hkp Y hY
      · by_contra hcon
        have hcon := not_lt.1 hcon
        have hθc := P.θc k hk hok
        have h2 : (h / v k)^2 ≤ residL (Y + θ) (mins (Shape.mk' dims) (Tf T st) k) := by
          have := residL_grow (by linarith) hθ hcon
          have e : h / v k - θ + θ = h / v k := by ring
          rwa [e] at this
        have hnar : st k = .narrow := by
          obtain ⟨t, ht, _⟩ := residL_pos_lt (lt_of_lt_of_le (by have := X.csq hk hok; linarith) h2)
          obtain ⟨a, ha, hae⟩ := mem_mins ht WithTop.coe_ne_top
          have haf : st a = .frozen := by
            unfold Tf at hae
            by_contra hh
            rw [if_neg hh] at hae
            exact WithTop.coe_ne_top hae
          rcases A.closed a k haf (nbrs_symm X.fits hk ha) hok hkp with h3 | h3
          · exact absurd h3 hkf'
          · exact h3
        have h3 := A.i2n k hnar _ h2
        have h4 := hmin k (A.nar k hnar).1
        have e : Y + θ + 2 * β = Y + (θ + 2 * β) := by ring
        rw [e] at h3
        exact absurd (lt_of_lt_of_le hY (le_trans h4 h3)) (lt_irrefl _)
    · rcases hini' with h1 | h1
      · exact Or.inl h1
      · right; intro k hk; exact (fz k).2 (Or.inl (h1 k hk))
    · intro i j hi hor hj ho hp
      have hix : i ≠ x := by
        rintro rfl
        rcases hor with h1 | h1
        · exact h1 rfl
        · exact h1 hj
      rw [e i hix] at hi
      by_cases hjx : j = x
      · left; simp [hjx]
      · rw [e j hjx]; exact A.closed i j hi hj ho hp
    · intro k hk hkn Y hY
      have hkx : k ≠ x := by rintro rfl; simp at hk
      rw [e k hkx] at hk
      rw [hsame k (A.heapN k (A.nar k hk).1) hkn] at hY
      exact A.i2n k hk Y hY
    · intro k hk hkn q hq hqf
      have hkx : k ≠ x := by rintro rfl; simp at hk
      rw [e k hkx] at hk
      have hkN := A.heapN k (A.nar k hk).1
      rcases (fz q).1 hqf with h1 | rfl
      · exact A.n1 k hk q hq h1
      · exact absurd (nbrs_symm X.fits hkN hq) hkn

end XInput
end FMV
