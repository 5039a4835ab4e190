import Verif.Lemmas.FMMExact
/-! The exact-arithmetic invariants hold along runs of the FMM model. -/
set_option linter.unusedSectionVars false
set_option linter.unusedVariables false
namespace FMV
open Spec Shape XR FMM

theorem tv_setValue (g : Grid XR) (j : Nat) (u : WithTop ℝ) :
    tv (g.setValue j (ofT u)) = fun k => if k = j then u else tv g k := by
  funext k
  unfold tv
  rw [Grid.value_setValue]
  split
  · simp
  · rfl

theorem goodG_setValue {g : Grid XR} (hg : GoodG g) {j : Nat} {t : XR} (ht : GoodT t) : GoodG (g.setValue j t) := by
  intro k
  rw [Grid.value_setValue]
  split
  · exact ht
  · exact hg k

theorem total_eq {g : Grid XR} (hg : GoodG g) (hz : ∀ i, (g.cells i).hValue = fin 0) (i : Nat) :
    (g.cells i).total = ofT (tv g i) := by
  unfold Cell.total
  rw [hz]
  have := (hg i)
  unfold tv
  rw [this.ofT_toT]
  show Arith.add (g.value i) (fin 0) = g.value i
  rcases this with h | ⟨r, _, h⟩ <;> rw [h]
  · rfl
  · simp [Arith.add, XR.add]

/-- state of a freshly cleaned grid: no arrival times, all cells OPEN, no heuristic -/
structure Fresh {F : Type} [Arith F] (g : Grid F) : Prop where
  value : ∀ i, g.value i = Arith.inf
  state : ∀ i, g.state i = .opn
  hValue : ∀ i, (g.cells i).hValue = Arith.zero

namespace XInput
variable {dims : List Nat} {g : Grid XR} {h : ℝ} {v : Nat → ℝ} {pts : List Nat}

/-- the invariant of FMM/SFMM without heuristic -/
structure FInv (X : XInput dims g h v pts) (s : St XR) : Prop where
  map : SameMap g s.g
  good : GoodG s.g
  hz : ∀ i, (s.g.cells i).hValue = fin 0
  ain : X.AInv (tv s.g) s.g.state s.heap

structure FMid (X : XInput dims g h v pts) (θ : ℝ) (x : Nat) (todo : List Nat) (s : St XR) : Prop where
  map : SameMap g s.g
  good : GoodG s.g
  hz : ∀ i, (s.g.cells i).hValue = fin 0
  mid : X.Mid θ x todo (tv s.g) s.g.state s.heap

theorem hz_setValue {g : Grid XR} (hz : ∀ i, (g.cells i).hValue = fin 0) (j : Nat) (t : XR) :
    ∀ i, ((g.setValue j t).cells i).hValue = fin 0 := by
  intro i; unfold Grid.setValue; rw [Grid.modify_cells]; split <;> exact hz i
theorem hz_setState {g : Grid XR} (hz : ∀ i, (g.cells i).hValue = fin 0) (j : Nat) (t) :
    ∀ i, ((g.setState j t).cells i).hValue = fin 0 := by
  intro i; unfold Grid.setState; rw [Grid.modify_cells]; split <;> exact hz i

theorem FMid.relax (X : XInput dims g h v pts) (hna : X.NonAdj) {cfg : Cfg XR} (hcfg : cfg.heur = .none) {θ : ℝ} {x j : Nat}
    {rest : List Nat} {s : St XR} (m : X.FMid θ x (j :: rest) s) (hj : j ∈ (Shape.mk' dims).nbrs x) (hjr : j ∉ rest) :
    X.FMid θ x rest (FMM.relax cfg eikS s j) := by
  have hjN : j < dims.prod := FMM.nbr_lt X.fits (m.mid.fzN x m.mid.fx) hj
  have hsm := m.map.trans (relax_sameMap cfg eikS s j)
  have hheur : ∀ (g' : Grid XR) i, applyHeur cfg g' i = g' := by
    intro g' i; unfold applyHeur; rw [hcfg]
  have hocc : s.g.occ j = g.occ j := SameMap.occ_eq m.map j
  have htv : s.g.value j = ofT (tv s.g j) := by unfold tv; rw [(m.good j).ofT_toT]
  rcases relax_cases cfg eikS s j with ⟨hsk, e⟩ | ⟨ho, hn, hb, e⟩ | ⟨ho, hn, hb, e⟩ | ⟨ho, hn, e⟩
  · rw [e] at hsm ⊢
    exact ⟨hsm, m.good, m.hz, m.mid.skip X (by rw [← hocc]; exact hsk)⟩
  · rw [hocc] at ho
    have he := X.eik_eq m.map m.good hjN ho
    have hgd := X.eik_good m.map m.good hjN ho
    rw [e] at hsm ⊢
    simp only [hheur] at hsm ⊢
    refine ⟨hsm, goodG_setValue (g := s.g.setScratch _) m.good hgd, hz_setValue (g := s.g.setScratch _) m.hz _ _, ?_⟩
    show X.Mid θ x rest (tv ((s.g.setScratch _).setValue j _)) _ _
    rw [he, tv_setValue]
    rw [he, htv, better_ofT] at hb
    refine m.mid.update X hna hj hjr ho (by rw [hn]; simp) ?_ ?_ ⟨?_, Or.inl ⟨?_, Or.inr hb⟩⟩
    · intro k; simp only [Grid.state_setValue, Grid.state_setScratch]
      split
      · next hk => rw [hk, hn]
      · rfl
    · intro y; dsimp only; split
      · rw [List.mem_cons]; tauto
      · constructor
        · exact Or.inl
        · rintro (h1 | rfl)
          · exact h1
          · exact (m.mid.nar y hn).1
    · intro k hk; rw [if_neg hk]; rfl
    · rw [if_pos rfl]
  · rw [hocc] at ho
    have he := X.eik_eq m.map m.good hjN ho
    rw [e] at hsm ⊢
    simp only [hheur] at hsm ⊢
    refine ⟨hsm, m.good, m.hz, ?_⟩
    have hb' : ¬ (Arith.better (eikS s.g j).1 (s.g.value j) = true) := by rw [hb]; simp
    rw [he, htv, better_ofT] at hb'
    refine m.mid.update X hna hj hjr ho (by rw [hn]; simp) ?_ ?_ ⟨fun k _ => rfl, Or.inr ⟨hn, rfl, hb'⟩⟩
    · intro k; simp only [Grid.state_setScratch]
      split
      · next hk => rw [hk, hn]
      · rfl
    · intro y; constructor
      · exact Or.inl
      · rintro (h1 | rfl)
        · exact h1
        · exact (m.mid.nar y hn).1
  · rw [hocc] at ho
    have he := X.eik_eq m.map m.good hjN ho
    have hgd := X.eik_good m.map m.good hjN ho
    rw [e] at hsm ⊢
    simp only [hheur] at hsm ⊢
    have hgs : GoodG ((s.g.setScratch (eikS s.g j).2).setState j .narrow) := by
      intro k; simp only [Grid.value_setState, Grid.value_setScratch]; exact m.good k
    refine ⟨hsm, goodG_setValue hgs hgd, hz_setValue (hz_setState (g := s.g.setScratch _) m.hz _ _) _ _, ?_⟩
    show X.Mid θ x rest (tv (((s.g.setScratch _).setState j _).setValue j _)) _ _
    rw [he, tv_setValue]
    refine m.mid.update X hna hj hjr ho (by rw [hn]; simp) ?_ ?_ ⟨?_, Or.inl ⟨?_, Or.inl hn⟩⟩
    · intro k; simp only [Grid.state_setValue, Grid.state_setState, Grid.state_setScratch]
    · intro y; dsimp only; rw [List.mem_cons]; tauto
    · intro k hk; rw [if_neg hk]; unfold tv; simp
    · rw [if_pos rfl]

theorem FMid.fold (X : XInput dims g h v pts) (hna : X.NonAdj) {cfg : Cfg XR} (hcfg : cfg.heur = .none) {θ : ℝ} {x : Nat} :
    ∀ (l : List Nat) (s : St XR), l.Nodup → (∀ j ∈ l, j ∈ (Shape.mk' dims).nbrs x) → X.FMid θ x l s →
    X.FMid θ x [] (l.foldl (FMM.relax cfg eikS) s) := by
  intro l
  induction l with
  | nil => intro s _ _ m; exact m
  | cons j l ih =>
    intro s hnd hl m
    rw [List.nodup_cons] at hnd
    rw [List.foldl_cons]
    exact ih _ hnd.2 (fun k hk => hl k (by simp [hk])) (FMid.relax X hna hcfg m (hl j (by simp)) hnd.1)

theorem FInv.step (X : XInput dims g h v pts) (hna : X.NonAdj) {cfg : Cfg XR} (hcfg : cfg.heur = .none) {s t : St XR}
    (I : X.FInv s) (hst : StepMin cfg s t) : X.FInv t := by
  obtain ⟨_, x, ⟨hx, hmin⟩, rfl⟩ := hst
  have hmin' : ∀ y ∈ s.heap, tv s.g x ≤ tv s.g y := by
    intro y hy
    have := hmin y hy
    rw [total_eq I.good I.hz, total_eq I.good I.hz] at this
    by_contra hlt
    have := (lt_ofT (tv s.g y) (tv s.g x)).2 (not_le.1 hlt)
    simp_all
  obtain ⟨θ, m⟩ := I.ain.pop X hx (Or.inr hmin')
  have m0 : X.FMid θ x ((Shape.mk' dims).nbrs x) (popped s x) := by
    refine ⟨I.map.trans (popped_sameMap s x), ?_, hz_setState I.hz _ _, ?_⟩
    · intro k; simp only [popped, Grid.value_setState]; exact I.good k
    · have e1 : tv (popped s x).g = tv s.g := by funext k; unfold tv; simp [popped]
      have e2 : (popped s x).g.state = fun k => if k = x then .frozen else s.g.state k := by
        funext k; simp [popped, Grid.state_setState]
      rw [e1, e2]
      exact m
  have m1 := FMid.fold X hna hcfg _ _ (nbrs_nodup X.fits (I.ain.heapN x hx)) (fun _ h => h) m0
  have hsh : s.g.shape = Shape.mk' dims := I.map.shape.trans X.shape
  rw [← hsh] at m1
  rw [expand_eq]
  exact ⟨m1.map, m1.good, m1.hz, m1.mid.done X⟩

theorem FInv.start (X : XInput dims g h v pts) (hfr : Fresh g) {cfg : Cfg XR} (hcfg : cfg.heur = .none) :
    X.FInv (FMM.init cfg g [] pts) := by
  have hv : ∀ k, (FMM.init cfg g [] pts).g.value k = if k ∈ pts then fin 0 else pinf := by
    intro k; rw [init_value, hfr.value]; rfl
  have hT : ∀ k, tv (FMM.init cfg g [] pts).g k = if k ∈ pts then 0 else ⊤ := by
    intro k; unfold tv; rw [hv]; split <;> rfl
  have hS : ∀ k, (FMM.init cfg g [] pts).g.state k = .opn := by
    intro k; rw [init_state]; exact hfr.state k
  have hH : ∀ k, k ∈ (FMM.init cfg g [] pts).heap ↔ k ∈ pts := by
    intro k; rw [init_heap]; simp
  refine ⟨init_sameMap _ _ _ _, ?_, ?_, ?_⟩
  · intro k; rw [hv]; split
    · exact Or.inr ⟨0, le_refl _, rfl⟩
    · exact Or.inl rfl
  · unfold FMM.init
    refine foldl_inv (I := fun s : St XR => ∀ i, (s.g.cells i).hValue = fin 0) _ _ _ (fun i => hfr.hValue i) ?_
    intro s i _ hs
    unfold initPoint applyHeur
    rw [hcfg]
    exact hz_setValue hs _ _
  · exact
    { nn := by intro k; rw [hT]; split <;> simp
      heapN := fun y hy => X.inside y ((hH y).1 hy)
      fzN := by intro k hk; rw [hS] at hk; cases hk
      finF := by intro k hk; rw [hS] at hk; cases hk
      finH := by intro y hy; rw [hT, if_pos ((hH y).1 hy)]; simp
      heapK := fun y hy => Or.inr (Or.inr ((hH y).1 hy))
      nar := by intro k hk; rw [hS] at hk; cases hk
      opn := by intro k _ hk; rw [hT, if_neg hk]
      ini := by intro k hk; rw [hT, if_pos hk]; exact ⟨rfl, Or.inr ((hH k).2 hk)⟩
      pos := by intro k hk; rw [hT, if_neg hk]; simp
      pf := by intro k hk; rw [hS] at hk; cases hk
      le := by intro i j hi; rw [hS] at hi; cases hi
      closed := by intro i j hi; rw [hS] at hi; cases hi
      snap := by intro k hk; rw [hS] at hk; cases hk }

theorem FInv.reach (X : XInput dims g h v pts) (hna : X.NonAdj) (hfr : Fresh g) {cfg : Cfg XR} (hcfg : cfg.heur = .none) {n : Nat}
    {s : St XR} (hs : Steps (StepMin cfg) n (FMM.init cfg g [] pts) s) : X.FInv s :=
  Steps.inv (I := fun s => X.FInv s) (r := StepMin cfg) (fun _ _ I hst => FInv.step X hna hcfg I hst) hs (FInv.start X hfr hcfg)

end XInput
end FMV
