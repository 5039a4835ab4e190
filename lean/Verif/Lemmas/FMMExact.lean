import Verif.Lemmas.Accuracy
import Verif.Props.FMMStruct
/-! Invariants of FMM in exact arithmetic. -/
set_option linter.unusedSectionVars false
set_option linter.unusedVariables false
namespace FMV
open Spec Shape XR FMM

theorem nbrs_symm {dims : List Nat} (h : Fits dims (2^31+1)) {i j : Nat} (hi : i < dims.prod)
    (hj : j ∈ (Shape.mk' dims).nbrs i) : i ∈ (Shape.mk' dims).nbrs j := by
  obtain ⟨k, hk, hj'⟩ := mem_nbrs.1 hj
  exact mem_nbrs.2 ⟨k, hk, nbrsDim_symm h hi hk hj'⟩

theorem nbrs_irrefl {dims : List Nat} (h : Fits dims (2^31+1)) {i : Nat} (hi : i < dims.prod) :
    i ∉ (Shape.mk' dims).nbrs i := by
  intro hc
  obtain ⟨_, k, hk⟩ := (axisAdjacent_iff h hi).1 hc
  have := hk.2.2.1
  omega

namespace XInput
variable {dims : List Nat} {g : Grid XR} {h : ℝ} {v : Nat → ℝ} {pts : List Nat}

/-- a past snapshot `W` of the times explains the current time of `j` -/
def Snap (X : XInput dims g h v pts) (T : Nat → WithTop ℝ) (A : Nat → Prop) (j : Nat) : Prop :=
  ∃ W : Nat → WithTop ℝ, (∀ k, k < dims.prod → A k → W k = T k) ∧ (∀ k, k < dims.prod → T k ≤ W k) ∧
    T j ≤ upd (h / v j) ⊤ (mins (Shape.mk' dims) W j) + (eps : WithTop ℝ)

/-- times of frozen cells only -/
noncomputable def Tf (T : Nat → WithTop ℝ) (st : Nat → FMState) (k : Nat) : WithTop ℝ :=
  if st k = .frozen then T k else ⊤

/-- common part of the invariants -/
structure Base (X : XInput dims g h v pts) (T : Nat → WithTop ℝ) (st : Nat → FMState) (heap : List Nat) : Prop where
  nn : ∀ k, 0 ≤ T k
  heapN : ∀ y ∈ heap, y < dims.prod
  fzN : ∀ k, st k = .frozen → k < dims.prod
  finF : ∀ k, st k = .frozen → T k ≠ ⊤
  finH : ∀ y ∈ heap, T y ≠ ⊤
  heapK : ∀ y ∈ heap, st y = .frozen ∨ st y = .narrow ∨ y ∈ pts
  nar : ∀ k, st k = .narrow → k ∈ heap ∧ g.occ k = false ∧ k ∉ pts
  opn : ∀ k, st k = .opn → k ∉ pts → T k = ⊤
  ini : ∀ k ∈ pts, T k = 0 ∧ (st k = .frozen ∨ k ∈ heap)
  pos : ∀ k, k ∉ pts → 0 < T k
  pf : ∀ j, st j = .frozen → j ∉ pts → ∀ Y : ℝ, (h / v j)^2 ≤ residL Y (mins (Shape.mk' dims) (Tf T st) j) →
    T j ≤ ((Y + 2 * eps : ℝ) : WithTop ℝ)

structure AInv (X : XInput dims g h v pts) (T : Nat → WithTop ℝ) (st : Nat → FMState) (heap : List Nat) : Prop
    extends Base X T st heap where
  le : ∀ i j, st i = .frozen → j < dims.prod → st j ≠ .frozen → T i ≤ T j
  closed : ∀ i j, st i = .frozen → j ∈ (Shape.mk' dims).nbrs i → g.occ j = false → j ∉ pts →
    st j = .frozen ∨ st j = .narrow
  snap : ∀ j, st j = .narrow → X.Snap T (fun k => st k = .frozen) j

structure Mid (X : XInput dims g h v pts) (θ : ℝ) (x : Nat) (todo : List Nat) (T : Nat → WithTop ℝ) (st : Nat → FMState)
    (heap : List Nat) : Prop extends Base X T st heap where
  fx : st x = .frozen
  fzle : ∀ i, st i = .frozen → T i ≤ (θ : WithTop ℝ)
  nfge : ∀ j, j < dims.prod → st j ≠ .frozen → (θ : WithTop ℝ) ≤ T j
  closed : ∀ i j, st i = .frozen → (i ≠ x ∨ j ∉ todo) → j ∈ (Shape.mk' dims).nbrs i → g.occ j = false → j ∉ pts →
    st j = .frozen ∨ st j = .narrow
  openOK : ∀ j, st j = .opn → j ∉ pts → g.occ j = false → j < dims.prod → ∀ i ∈ (Shape.mk' dims).nbrs j, st i = .frozen →
    (θ : WithTop ℝ) ≤ T i
  snap : ∀ j, st j = .narrow → j ∉ todo → X.Snap T (fun k => st k = .frozen) j
  snap' : ∀ j, st j = .narrow → j ∈ todo → X.Snap T (fun k => T k < (θ : WithTop ℝ)) j

theorem Mid.done (X : XInput dims g h v pts) {θ x T st heap} (m : X.Mid θ x [] T st heap) : X.AInv T st heap :=
  { toBase := m.toBase
    le := fun i j hi hj hn => le_trans (m.fzle i hi) (m.nfge j hj hn)
    closed := fun i j hi hj ho hp => m.closed i j hi (Or.inr (by simp)) hj ho hp
    snap := fun j hj => m.snap j hj (by simp) }

/-- no two adjacent initial points one of which is free -/
def NonAdj (X : XInput dims g h v pts) : Prop :=
  ∀ i ∈ pts, g.occ i = false → ∀ j ∈ (Shape.mk' dims).nbrs i, j ∉ pts

theorem mem_mins {s : Shape} {T : Nat → WithTop ℝ} {i : Nat} {m : WithTop ℝ} (hm : m ∈ mins s T i) (hne : m ≠ ⊤) :
    ∃ j ∈ s.nbrs i, m = T j := by
  unfold mins at hm
  rw [List.mem_map] at hm
  obtain ⟨k, hk, rfl⟩ := hm
  obtain ⟨j, hj, e⟩ := dimMin_attained hne
  exact ⟨j, mem_nbrs.2 ⟨k, List.mem_range.1 hk, hj⟩, e⟩

/-- a neighbour bounds some directional minimum -/
theorem mins_le {s : Shape} {T : Nat → WithTop ℝ} {i j : Nat} (hj : j ∈ s.nbrs i) : ∃ m ∈ mins s T i, m ≤ T j := by
  obtain ⟨k, hk, hj'⟩ := mem_nbrs.1 hj
  exact ⟨dimMin s T i k, List.mem_map_of_mem (List.mem_range.2 hk), dimMin_le hj'⟩

/-- Order lemma: a proposed time that would be accepted is not below `θ`. -/
theorem Mid.order (X : XInput dims g h v pts) {θ : ℝ} {x : Nat} {todo : List Nat} {T st heap} (m : X.Mid θ x todo T st heap) {j : Nat}
    (hjN : j < dims.prod) (ho : g.occ j = false) (hjp : j ∉ pts) (hjt : j ∈ todo) (hnf : st j ≠ .frozen)
    (hacc : st j = .opn ∨ upd (h / v j) (T j) (mins (Shape.mk' dims) T j) + (eps : WithTop ℝ) < T j) :
    (θ : WithTop ℝ) ≤ upd (h / v j) (T j) (mins (Shape.mk' dims) T j) := by
  have hc := X.cpos hjN ho
  by_contra hlt
  have hlt := not_le.1 hlt
  cases hu : upd (h / v j) (T j) (mins (Shape.mk' dims) T j) with
  | top => rw [hu] at hlt; exact absurd hlt not_top_lt
  | coe u =>
    rw [hu] at hlt hacc
    have hlt' : u < θ := by exact_mod_cast hlt
    cases hst : st j with
    | frozen => exact hnf hst
    | opn =>
      obtain ⟨t, ht, _, htu⟩ := upd_gt hc hu
      obtain ⟨a, ha, e⟩ := mem_mins ht WithTop.coe_ne_top
      have haN : a < dims.prod := FMM.nbr_lt X.fits hjN ha
      have hTa : T a < (θ : WithTop ℝ) := by rw [← e]; exact_mod_cast lt_trans htu hlt'
      have haf : st a = .frozen := by
        by_contra hh; exact absurd (m.nfge a haN hh) (not_le.2 hTa)
      exact absurd (m.openOK j hst hjp ho hjN a ha haf) (not_le.2 hTa)
    | narrow =>
      have hacc' : ((u : WithTop ℝ) + (eps : WithTop ℝ)) < T j := by
        rcases hacc with h1 | h1
        · rw [hst] at h1; cases h1
        · exact h1
      obtain ⟨W, w1, w2, w3⟩ := m.snap' j hst hjt
      have : upd (h / v j) ⊤ (mins (Shape.mk' dims) W j) = (u : WithTop ℝ) := by
        unfold mins at hu ⊢
        refine upd_congr hc _ _ _ (m.nfge j hjN (by rw [hst]; simp)) le_top ?_ hu hlt'
        intro k hk hor
        have hk' : k < dims.length := List.mem_range.1 hk
        have hle : dimMin (Shape.mk' dims) T j k ≤ dimMin (Shape.mk' dims) W j k :=
          le_dimMin (fun a ha => le_trans (dimMin_le ha) (w2 a (nbrsDim_lt X.fits hjN hk' ha)))
        have hTlt : dimMin (Shape.mk' dims) T j k < (θ : WithTop ℝ) := by
          rcases hor with h1 | h1
          · exact h1
          · exact lt_of_le_of_lt hle h1
        obtain ⟨a, ha, e⟩ := dimMin_attained (ne_top_of_lt hTlt)
        apply le_antisymm hle
        rw [e] at hTlt ⊢
        rw [← w1 a (nbrsDim_lt X.fits hjN hk' ha) hTlt]
        exact dimMin_le ha
      rw [this] at w3
      exact absurd hacc' (not_lt.2 w3)

theorem mins_nn {s : Shape} {T : Nat → WithTop ℝ} (hT : ∀ k, 0 ≤ T k) (i : Nat) : ∀ m ∈ mins s T i, 0 ≤ m := by
  intro m hm
  unfold mins at hm
  rw [List.mem_map] at hm
  obtain ⟨k, _, rfl⟩ := hm
  exact le_dimMin (fun j _ => hT j)

theorem upd_pos {c : ℝ} (hc : 0 < c) {Ti : WithTop ℝ} {ms : List (WithTop ℝ)} (h : ∀ m ∈ ms, 0 ≤ m) : 0 < upd c Ti ms := by
  cases hu : upd c Ti ms with
  | top => simp
  | coe u =>
    obtain ⟨t, ht, _, htu⟩ := upd_gt hc hu
    have h0 : (0:ℝ) ≤ t := by exact_mod_cast h _ ht
    exact_mod_cast lt_of_le_of_lt h0 htu

/-- The neighbour being visited is not an initial point. -/
theorem Mid.not_init (X : XInput dims g h v pts) (hna : X.NonAdj) {θ : ℝ} {x : Nat} {todo : List Nat} {T st heap}
    (m : X.Mid θ x todo T st heap) {j : Nat} (hj : j ∈ (Shape.mk' dims).nbrs x) (ho : g.occ j = false)
    (hnf : st j ≠ .frozen) : j ∉ pts := by
  intro hp
  have hxN := m.fzN x m.fx
  have hjN := FMM.nbr_lt X.fits hxN hj
  by_cases hx : x ∈ pts
  · exact hna j hp ho x (nbrs_symm X.fits hxN hj) hx
  · have h1 := m.pos x hx
    have h2 := m.nfge j hjN hnf
    have h3 := m.fzle x m.fx
    rw [(m.ini j hp).1] at h2
    exact absurd (lt_of_lt_of_le h1 (le_trans h3 h2)) (lt_irrefl _)

theorem Tf_congr {T T' : Nat → WithTop ℝ} {st st' : Nat → FMState} (h1 : ∀ k, st' k = .frozen ↔ st k = .frozen)
    (h2 : ∀ k, st k = .frozen → T' k = T k) : Tf T' st' = Tf T st := by
  funext k
  unfold Tf
  by_cases hk : st k = .frozen
  · rw [if_pos hk, if_pos ((h1 k).2 hk), h2 k hk]
  · rw [if_neg hk, if_neg (fun h => hk ((h1 k).1 h))]

/-- skipping a frozen or occupied neighbour -/
theorem Mid.skip (X : XInput dims g h v pts) {θ : ℝ} {x j : Nat} {rest : List Nat} {T st heap}
    (m : X.Mid θ x (j :: rest) T st heap) (hsk : st j = .frozen ∨ g.occ j = true) : X.Mid θ x rest T st heap :=
  { toBase := m.toBase
    fx := m.fx
    fzle := m.fzle
    nfge := m.nfge
    closed := by
      intro i k hi hor hk ho hp
      by_cases hkj : k = j
      · subst hkj
        rcases hsk with h1 | h1
        · exact Or.inl h1
        · rw [ho] at h1; cases h1
      · apply m.closed i k hi _ hk ho hp
        rcases hor with h1 | h1
        · exact Or.inl h1
        · right; simp [hkj, h1]
    openOK := m.openOK
    snap := by
      intro k hk hkr
      apply m.snap k hk
      have : k ≠ j := by
        rintro rfl
        rcases hsk with h1 | h1
        · rw [hk] at h1; cases h1
        · rw [(m.nar k hk).2.1] at h1; cases h1
      simp [this, hkr]
    snap' := fun k hk hkr => m.snap' k hk (by simp [hkr]) }

/-- updating (or not) an unfrozen free neighbour -/
theorem Mid.update (X : XInput dims g h v pts) (hna : X.NonAdj) {θ : ℝ} {x j : Nat} {rest : List Nat} {T st heap}
    (m : X.Mid θ x (j :: rest) T st heap) (hj : j ∈ (Shape.mk' dims).nbrs x) (hjr : j ∉ rest) (ho : g.occ j = false)
    (hnf : st j ≠ .frozen) {T' : Nat → WithTop ℝ} {st' : Nat → FMState} {heap' : List Nat}
    (hst : ∀ k, st' k = if k = j then .narrow else st k)
    (hheap : ∀ y, y ∈ heap' ↔ y ∈ heap ∨ y = j)
    (hT : (∀ k, k ≠ j → T' k = T k) ∧
      ((T' j = upd (h / v j) (T j) (mins (Shape.mk' dims) T j) ∧
        (st j = .opn ∨ upd (h / v j) (T j) (mins (Shape.mk' dims) T j) + (eps : WithTop ℝ) < T j)) ∨
       (st j = .narrow ∧ T' j = T j ∧ ¬ (upd (h / v j) (T j) (mins (Shape.mk' dims) T j) + (eps : WithTop ℝ) < T j)))) :
    X.Mid θ x rest T' st' heap' := by
  have hxN := m.fzN x m.fx
  have hjN : j < dims.prod := FMM.nbr_lt X.fits hxN hj
  have hjp := m.not_init X hna hj ho hnf
  have hc := X.cpos hjN ho
  obtain ⟨hT1, hT2⟩ := hT
  have fz : ∀ k, st' k = .frozen ↔ st k = .frozen := by
    intro k; rw [hst]; split
    · next hk => rw [hk]; constructor
                 · intro hh; cases hh
                 · intro hh; exact absurd hh hnf
    · rfl
  have Tfz : ∀ k, st k = .frozen → T' k = T k := fun k hk => hT1 k (by rintro rfl; exact hnf hk)
  have hopT : st j = .opn → T j = ⊤ := fun h1 => m.opn j h1 hjp
  -- facts about the new time of j
  have hTj : T' j ≤ T j := by
    rcases hT2 with ⟨e, h1 | h1⟩ | ⟨_, e, _⟩
    · rw [hopT h1]; exact le_top
    · rw [e]; exact le_of_lt (lt_of_le_of_lt (by
        have : (0 : WithTop ℝ) ≤ (eps : WithTop ℝ) := by exact_mod_cast eps_pos.le
        exact le_add_of_nonneg_right this) h1)
    · exact le_of_eq e
  have hTle : ∀ k, T' k ≤ T k := by
    intro k
    by_cases hk : k = j
    · rw [hk]; exact hTj
    · exact le_of_eq (hT1 k hk)
  have hθj : (θ : WithTop ℝ) ≤ T' j := by
    rcases hT2 with ⟨e, h1⟩ | ⟨_, e, _⟩
    · rw [e]; exact m.order X hjN ho hjp (by simp) hnf h1
    · rw [e]; exact m.nfge j hjN hnf
  have hposj : 0 < T' j := by
    rcases hT2 with ⟨e, h1⟩ | ⟨_, e, _⟩
    · rw [e]; exact upd_pos hc (mins_nn m.nn j)
    · rw [e]; exact m.pos j hjp
  have hfinj : T' j ≠ ⊤ := by
    rcases hT2 with ⟨e, h1 | h1⟩ | ⟨h1, e, _⟩
    · rw [e, hopT h1]
      intro htop
      rw [upd_eq_top_iff hc] at htop
      obtain ⟨mm, hmm, hle⟩ := mins_le (T := T) (nbrs_symm X.fits hxN hj)
      have hx := m.finF x m.fx
      rcases htop mm hmm with h2 | h2
      · rw [h2] at hle; exact hx (top_le_iff.1 hle)
      · rw [top_le_iff.1 h2] at hle; exact hx (top_le_iff.1 hle)
    · rw [e]; intro htop; rw [htop] at h1; simp at h1
    · rw [e]; exact m.finH j ((m.nar j h1).1)
  have hTfe : Tf T' st' = Tf T st := Tf_congr fz Tfz
  refine { nn := ?_, heapN := ?_, fzN := ?_, finF := ?_, finH := ?_, heapK := ?_, nar := ?_, opn := ?_, ini := ?_, pos := ?_,
           pf := ?_, fx := ?_, fzle := ?_, nfge := ?_, closed := ?_, openOK := ?_, snap := ?_, snap' := ?_ }
  · intro k
    by_cases hk : k = j
    · rw [hk]; exact hposj.le
    · rw [hT1 k hk]; exact m.nn k
  · intro y hy
    rcases (hheap y).1 hy with h1 | rfl
    · exact m.heapN y h1
    · exact hjN
  · intro k hk; exact m.fzN k ((fz k).1 hk)
  · intro k hk; rw [Tfz k ((fz k).1 hk)]; exact m.finF k ((fz k).1 hk)
  · intro y hy
    by_cases hyj : y = j
    · rw [hyj]; exact hfinj
    · rcases (hheap y).1 hy with h1 | h1
      · rw [hT1 y hyj]; exact m.finH y h1
      · exact absurd h1 hyj
  · intro y hy
    by_cases hyj : y = j
    · right; left; rw [hst, if_pos hyj]
    · rcases (hheap y).1 hy with h1 | h1
      · rw [hst, if_neg hyj]; exact m.heapK y h1
      · exact absurd h1 hyj
  · intro k hk
    by_cases hkj : k = j
    · subst hkj; exact ⟨(hheap k).2 (Or.inr rfl), ho, hjp⟩
    · rw [hst, if_neg hkj] at hk
      have := m.nar k hk
      exact ⟨(hheap k).2 (Or.inl this.1), this.2⟩
  · intro k hk hkp
    by_cases hkj : k = j
    · rw [hst, if_pos hkj] at hk; cases hk
    · rw [hst, if_neg hkj] at hk
      rw [hT1 k hkj]; exact m.opn k hk hkp
  · intro k hk
    have hkj : k ≠ j := by rintro rfl; exact hjp hk
    rw [hT1 k hkj]
    refine ⟨(m.ini k hk).1, ?_⟩
    rcases (m.ini k hk).2 with h1 | h1
    · exact Or.inl ((fz k).2 h1)
    · exact Or.inr ((hheap k).2 (Or.inl h1))
  · intro k hk
    by_cases hkj : k = j
    · rw [hkj]; exact hposj
    · rw [hT1 k hkj]; exact m.pos k hk
  · intro k hk hkp Y hY
    rw [hTfe] at hY
    rw [Tfz k ((fz k).1 hk)]
    exact m.pf k ((fz k).1 hk) hkp Y hY
  · exact (fz x).2 m.fx
  · intro i hi; rw [Tfz i ((fz i).1 hi)]; exact m.fzle i ((fz i).1 hi)
  · intro k hk hkf
    by_cases hkj : k = j
    · rw [hkj]; exact hθj
    · rw [hT1 k hkj]; exact m.nfge k hk (fun hh => hkf ((fz k).2 hh))
  · intro i k hi hor hk hok hkp
    by_cases hkj : k = j
    · right; rw [hst, if_pos hkj]
    · have := m.closed i k ((fz i).1 hi) (by
        rcases hor with h1 | h1
        · exact Or.inl h1
        · right; simp [hkj, h1]) hk hok hkp
      rw [hst, if_neg hkj]; exact this
  · intro k hk hkp hok hkN i hi hif
    have hkj : k ≠ j := by rintro rfl; rw [hst, if_pos rfl] at hk; cases hk
    rw [hst, if_neg hkj] at hk
    rw [Tfz i ((fz i).1 hif)]
    exact m.openOK k hk hkp hok hkN i hi ((fz i).1 hif)
  · intro k hk hkr
    by_cases hkj : k = j
    · subst hkj
      refine ⟨T, ?_, fun a _ => hTle a, ?_⟩
      · intro a _ ha; exact (Tfz a ((fz a).1 ha)).symm
      · have heps : (0 : WithTop ℝ) ≤ (eps : WithTop ℝ) := by exact_mod_cast eps_pos.le
        rcases hT2 with ⟨e, h1 | h1⟩ | ⟨h1, e, h2⟩
        · rw [e, hopT h1]; exact le_add_of_nonneg_right heps
        · cases hu : upd (h / v k) (T k) (mins (Shape.mk' dims) T k) with
          | top => rw [hu] at h1; simp at h1
          | coe u =>
            rw [hu] at h1 e
            have hlt : (u : WithTop ℝ) < T k := lt_of_le_of_lt (le_add_of_nonneg_right heps) h1
            have := (upd_cut hc (List.range (Shape.mk' dims).ndims) (dimMin (Shape.mk' dims) T k) hlt).1 hu
            unfold mins
            rw [this, e]
            exact le_add_of_nonneg_right heps
        · rw [e]
          by_cases hlt : upd (h / v k) ⊤ (mins (Shape.mk' dims) T k) < T k
          · cases hu : upd (h / v k) ⊤ (mins (Shape.mk' dims) T k) with
            | top => rw [hu] at hlt; exact absurd hlt not_top_lt
            | coe u =>
              rw [hu] at hlt
              have := (upd_cut hc (List.range (Shape.mk' dims).ndims) (dimMin (Shape.mk' dims) T k) hlt).2 hu
              have h3 : upd (h / v k) (T k) (mins (Shape.mk' dims) T k) = (u : WithTop ℝ) := this
              rw [h3] at h2
              exact not_lt.1 h2
          · exact le_trans (not_lt.1 hlt) (le_add_of_nonneg_right heps)
    · rw [hst, if_neg hkj] at hk
      obtain ⟨W, w1, w2, w3⟩ := m.snap k hk (by simp [hkj, hkr])
      refine ⟨W, ?_, fun a ha => le_trans (hTle a) (w2 a ha), ?_⟩
      · intro a haN ha
        rw [w1 a haN ((fz a).1 ha), Tfz a ((fz a).1 ha)]
      · rw [hT1 k hkj]; exact w3
  · intro k hk hkr
    have hkj : k ≠ j := by rintro rfl; exact hjr hkr
    rw [hst, if_neg hkj] at hk
    obtain ⟨W, w1, w2, w3⟩ := m.snap' k hk (by simp [hkr])
    refine ⟨W, ?_, fun a ha => le_trans (hTle a) (w2 a ha), ?_⟩
    · intro a haN ha
      have haj : a ≠ j := by rintro rfl; exact absurd hθj (not_le.2 ha)
      rw [hT1 a haj] at ha ⊢
      exact w1 a haN ha
    · rw [hT1 k hkj]; exact w3

/-- popping `x` -/
theorem AInv.pop (X : XInput dims g h v pts) {T st heap} (A : X.AInv T st heap) {x : Nat} (hx : x ∈ heap)
    (hmin : st x = .frozen ∨ ∀ y ∈ heap, T x ≤ T y) :
    ∃ θ : ℝ, X.Mid θ x ((Shape.mk' dims).nbrs x) T (fun k => if k = x then .frozen else st k) (heap.erase x) := by
  classical
  have hxN := A.heapN x hx
  have heps : (0 : WithTop ℝ) ≤ (eps : WithTop ℝ) := by exact_mod_cast eps_pos.le
  have hersub : ∀ y, y ∈ heap.erase x → y ∈ heap := fun y hy => List.mem_of_mem_erase hy
  have her : ∀ k, k ≠ x → k ∈ heap → k ∈ heap.erase x := fun k hk hks => (List.mem_erase_of_ne hk).2 hks
  by_cases hfx : st x = .frozen
  · -- popped again
    have hst : (fun k => if k = x then FMState.frozen else st k) = st := by
      funext k; split
      · next hk => rw [hk, hfx]
      · rfl
    rw [hst]
    -- maximum over frozen cells
    obtain ⟨i0, hi0, hmax⟩ := Finset.exists_max_image ((Finset.range dims.prod).filter (fun k => st k = .frozen)) T
      ⟨x, by simp [hxN, hfx]⟩
    rw [Finset.mem_filter, Finset.mem_range] at hi0
    cases hTi : T i0 with
    | top => exact absurd hTi (A.finF i0 hi0.2)
    | coe θ =>
      have fzle : ∀ i, st i = .frozen → T i ≤ (θ : WithTop ℝ) := by
        intro i hi; rw [← hTi]; exact hmax i (by simp [A.fzN i hi, hi])
      have nfge : ∀ j, j < dims.prod → st j ≠ .frozen → (θ : WithTop ℝ) ≤ T j := by
        intro j hj hn; rw [← hTi]; exact A.le i0 j hi0.2 hj hn
      refine ⟨θ, { nn := A.nn, heapN := fun y hy => A.heapN y (hersub y hy), fzN := A.fzN, finF := A.finF,
                   finH := fun y hy => A.finH y (hersub y hy), heapK := fun y hy => A.heapK y (hersub y hy), nar := ?_, opn := A.opn,
                   ini := ?_, pos := A.pos, pf := A.pf, fx := hfx, fzle := fzle, nfge := nfge,
                   closed := fun i j hi _ hj ho hp => A.closed i j hi hj ho hp, openOK := ?_,
                   snap := fun j hj _ => A.snap j hj, snap' := ?_ }⟩
      · intro k hk
        have := A.nar k hk
        exact ⟨her k (by rintro rfl; rw [hfx] at hk; cases hk) this.1, this.2⟩
      · intro k hk
        refine ⟨(A.ini k hk).1, ?_⟩
        by_cases hkx : k = x
        · left; rw [hkx]; exact hfx
        · rcases (A.ini k hk).2 with h1 | h1
          · exact Or.inl h1
          · exact Or.inr (her k hkx h1)
      · intro j hj hjp ho hjN i hi hif
        exfalso
        have := A.closed i j hif (nbrs_symm X.fits hjN hi) ho hjp
        rw [hj] at this; simp at this
      · intro j hj _
        obtain ⟨W, w1, w2, w3⟩ := A.snap j hj
        refine ⟨W, ?_, w2, w3⟩
        intro k hkN hk
        apply w1 k hkN
        by_contra hh
        exact absurd (nfge k hkN hh) (not_le.2 hk)
  · have hmin' : ∀ y ∈ heap, T x ≤ T y := hmin.resolve_left hfx
    cases hTx : T x with
    | top => exact absurd hTx (A.finH x hx)
    | coe θ =>
      have e : ∀ k, k ≠ x → (if k = x then FMState.frozen else st k) = st k := fun k hk => if_neg hk
      have fz : ∀ k, (if k = x then FMState.frozen else st k) = .frozen ↔ st k = .frozen ∨ k = x := by
        intro k; split
        · next hk => simp [hk]
        · next hk => simp [hk]
      have fzle : ∀ i, st i = .frozen → T i ≤ (θ : WithTop ℝ) := by
        intro i hi; rw [← hTx]; exact A.le i x hi hxN hfx
      have nfge : ∀ j, j < dims.prod → st j ≠ .frozen → (θ : WithTop ℝ) ≤ T j := by
        intro j hj hn
        rw [← hTx]
        cases hs : st j with
        | frozen => exact absurd hs hn
        | narrow => exact hmin' j (A.nar j hs).1
        | opn =>
          by_cases hjp : j ∈ pts
          · rcases (A.ini j hjp).2 with h1 | h1
            · exact absurd h1 hn
            · exact hmin' j h1
          · rw [A.opn j hs hjp]; exact le_top
      refine ⟨θ, { nn := A.nn, heapN := fun y hy => A.heapN y (hersub y hy), fzN := ?_, finF := ?_,
                   finH := fun y hy => A.finH y (hersub y hy), heapK := ?_, nar := ?_, opn := ?_,
                   ini := ?_, pos := A.pos, pf := ?_, fx := by simp, fzle := ?_, nfge := ?_,
                   closed := ?_, openOK := ?_, snap := ?_, snap' := ?_ }⟩
      · intro k hk
        rcases (fz k).1 hk with h1 | rfl
        · exact A.fzN k h1
        · exact hxN
      · intro k hk
        rcases (fz k).1 hk with h1 | rfl
        · exact A.finF k h1
        · rw [hTx]; exact WithTop.coe_ne_top
      · intro y hy
        by_cases hyx : y = x
        · left; simp [hyx]
        · rw [e y hyx]; exact A.heapK y (hersub y hy)
      · intro k hk
        by_cases hkx : k = x
        · simp [hkx] at hk
        · rw [e k hkx] at hk
          have := A.nar k hk
          exact ⟨her k hkx this.1, this.2⟩
      · intro k hk hkp
        by_cases hkx : k = x
        · simp [hkx] at hk
        · rw [e k hkx] at hk; exact A.opn k hk hkp
      · intro k hk
        refine ⟨(A.ini k hk).1, ?_⟩
        by_cases hkx : k = x
        · left; simp [hkx]
        · rw [e k hkx]
          rcases (A.ini k hk).2 with h1 | h1
          · exact Or.inl h1
          · exact Or.inr (her k hkx h1)
      · -- converged with respect to frozen neighbours
        intro j hj hjp Y hY
        by_cases hjx : j = x
        · subst hjx
          have hnar : st j = .narrow := by
            rcases A.heapK j hx with h1 | h1 | h1
            · exact absurd h1 hfx
            · exact h1
            · exact absurd h1 hjp
          obtain ⟨W, w1, w2, w3⟩ := A.snap j hnar
          have hres : (h / v j)^2 ≤ residL Y (mins (Shape.mk' dims) W j) := by
            refine le_trans hY ?_
            unfold mins
            apply residL_le_map
            intro k hk
            apply posSq_anti
            apply le_dimMin
            intro a ha
            refine le_trans (dimMin_le ha) ?_
            have haN := nbrsDim_lt X.fits hxN (List.mem_range.1 hk) ha
            have haj : a ≠ j := by
              rintro rfl
              exact nbrs_irrefl X.fits hxN (mem_nbrs.2 ⟨k, List.mem_range.1 hk, ha⟩)
            unfold Tf
            split
            · next hf =>
              have hf' : st a = .frozen := by simpa [haj] using hf
              exact le_of_eq (w1 a haN hf')
            · exact le_top
          obtain ⟨u, hu, huY⟩ := upd_upper (X.cpos hxN (A.nar j hnar).2.1) (WithTop.coe_lt_top Y) hres
          rw [hu] at w3
          refine le_trans w3 ?_
          have : u + eps ≤ Y + 2 * eps := by linarith
          exact_mod_cast this
        · have hjf : st j = .frozen := by
            rcases (fz j).1 hj with h1 | h1
            · exact h1
            · exact absurd h1 hjx
          by_cases hYθ : Y ≤ θ
          · apply A.pf j hjf hjp Y
            refine le_trans hY ?_
            unfold mins
            apply residL_le_map
            intro k hk
            rcases lt_or_ge (dimMin (Shape.mk' dims) (Tf T (fun k => if k = x then FMState.frozen else st k)) j k) (Y : WithTop ℝ) with hlt | hge
            · apply posSq_anti
              obtain ⟨a, ha, he⟩ := dimMin_attained (ne_top_of_lt hlt)
              rw [he] at hlt ⊢
              refine le_trans (dimMin_le ha) ?_
              by_cases hax : a = x
              · exfalso
                subst hax
                unfold Tf at hlt
                rw [if_pos (by simp), hTx] at hlt
                have : θ < Y := by exact_mod_cast hlt
                linarith
              · unfold Tf
                simp [hax]
            · rw [posSq_eq_zero hge]; exact posSq_nonneg _ _
          · refine le_trans (fzle j hjf) ?_
            have : θ ≤ Y + 2 * eps := by linarith [eps_pos]
            exact_mod_cast this
      · intro i hi
        rcases (fz i).1 hi with h1 | rfl
        · exact fzle i h1
        · exact le_of_eq hTx
      · intro j hj hn
        have : st j ≠ .frozen := fun hh => hn ((fz j).2 (Or.inl hh))
        exact nfge j hj this
      · intro i j hi hor hj ho hp
        have hix : i ≠ x := by
          rintro rfl
          rcases hor with h1 | h1
          · exact h1 rfl
          · exact h1 hj
        rw [e i hix] at hi
        by_cases hjx : j = x
        · left; simp [hjx]
        · rw [e j hjx]; exact A.closed i j hi hj ho hp
      · intro j hj hjp ho hjN i hi hif
        have hjx : j ≠ x := by rintro rfl; simp at hj
        rw [e j hjx] at hj
        rcases (fz i).1 hif with h1 | rfl
        · exfalso
          have := A.closed i j h1 (nbrs_symm X.fits hjN hi) ho hjp
          rw [hj] at this; simp at this
        · exact le_of_eq hTx.symm
      · intro j hj hjn
        have hjx : j ≠ x := by rintro rfl; simp at hj
        rw [e j hjx] at hj
        obtain ⟨W, w1, w2, w3⟩ := A.snap j hj
        have hjN := A.heapN j (A.nar j hj).1
        refine ⟨fun k => if k = x then T x else W k, ?_, ?_, ?_⟩
        · intro k hkN hk
          rcases (fz k).1 hk with h1 | h1
          · show ite _ _ _ = _
            split
            · next hh => rw [hh]
            · exact w1 k hkN h1
          · show ite _ _ _ = _
            rw [if_pos h1, h1]
        · intro k hkN
          show _ ≤ ite _ _ _
          split
          · next hh => rw [hh]
          · exact w2 k hkN
        · have : mins (Shape.mk' dims) (fun k => if k = x then T x else W k) j = mins (Shape.mk' dims) W j := by
            unfold mins
            apply List.map_congr_left
            intro k hk
            unfold dimMin
            congr 1
            apply List.map_congr_left
            intro a ha
            have : a ≠ x := by
              rintro rfl
              exact hjn (nbrs_symm X.fits hjN (mem_nbrs.2 ⟨k, List.mem_range.1 hk, ha⟩))
            rw [if_neg this]
          rw [this]; exact w3
      · intro j hj _
        have hjx : j ≠ x := by rintro rfl; simp at hj
        rw [e j hjx] at hj
        obtain ⟨W, w1, w2, w3⟩ := A.snap j hj
        refine ⟨W, ?_, w2, w3⟩
        intro k hkN hk
        apply w1 k hkN
        by_contra hh
        exact absurd (nfge k hkN hh) (not_le.2 hk)

end XInput
end FMV
