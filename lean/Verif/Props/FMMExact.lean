import Verif.Lemmas.FMMLink
/-!
# C10, C15, C16, C18, C47 for FMM / SFMM (exact arithmetic)

Setting: `XInput dims g h v pts` says that the grid `g` has sizes `dims` (each at least 2, at most 2^31 cells), leaf size `h > 0` and
speed `v i` in every free cell, and that `pts` are cell indices; `Fresh g` says that the grid has been cleaned.  Arithmetic is exact
(`XR`), the comparison margin is the library's.  `cfg.dup = false` is FMM, `cfg.dup = true` is SFMM (duplicated queue entries) with a queue that releases minima;
`StepMin` lets the queue return any of the smallest elements (every tie-breaking rule).
-/
set_option linter.unusedSectionVars false
set_option linter.unusedVariables false
namespace FMV
open Spec Shape XR FMM

/-- No two initial points are neighbours, unless both are inside obstacles. -/
def StartsApart {F : Type} [Arith F] (dims : List Nat) (g : Grid F) (pts : List Nat) : Prop :=
  ∀ i ∈ pts, ∀ j ∈ pts, g.occ i = false → ¬ AxisAdjacent ((Shape.mk' dims).idx2coord i) ((Shape.mk' dims).idx2coord j)

variable {dims : List Nat} {g : Grid XR} {h : ℝ} {v : Nat → ℝ} {pts : List Nat}

theorem StartsApart.nonAdj (X : XInput dims g h v pts) (ha : StartsApart dims g pts) : X.NonAdj := by
  intro i hi ho j hj hjp
  exact ha i hi j hjp ho ((axisAdjacent_iff X.fits (X.inside i hi)).1 hj).2

/-! ## C10 -/

/-- **C10** (partial: initial points must be pairwise non-adjacent): in every state of every FMM/SFMM run, every initial point has
arrival time exactly 0. -/
theorem C10_FMM_partial (X : XInput dims g h v pts) (hfr : Fresh g) (ha : StartsApart dims g pts) (cfg : Cfg XR)
    (hcfg : cfg.heur = .none) (n : Nat) (s : St XR) (hs : Steps (StepMin cfg) n (FMM.init cfg g [] pts) s) (i : Nat)
    (hi : i ∈ pts) : s.g.value i = fin 0 := by
  have I := XInput.FInv.reach X (ha.nonAdj X) hfr hcfg hs
  have h1 := (I.ain.ini i hi).1
  have h2 := (I.good i).ofT_toT
  unfold tv at h1
  rw [h1] at h2
  rw [← h2]; rfl

theorem tv_relax_pos (X : XInput dims g h v pts) {cfg : Cfg XR} {s : St XR} (hm : SameMap g s.g) (hg : GoodG s.g) {j : Nat}
    (hj : j < dims.prod) :
    SameMap g (relax cfg eikS s j).g ∧ GoodG (relax cfg eikS s j).g ∧
      (∀ k, 0 < tv s.g k → 0 < tv (relax cfg eikS s j).g k) ∧
      (s.g.state j = .opn → g.occ j = false → 0 < tv (relax cfg eikS s j).g j) := by
  have hocc : s.g.occ j = g.occ j := SameMap.occ_eq hm j
  refine ⟨hm.trans (relax_sameMap _ _ _ _), ?_⟩
  have hpos : g.occ j = false → 0 < toT (eikS s.g j).1 := by
    intro ho
    rw [X.eik_eq hm hg hj ho]
    simp only [toT_ofT]
    apply XInput.upd_pos (X.cpos hj ho)
    exact XInput.mins_nn (fun k => (hg k).toT_nonneg) j
  rcases relax_cases cfg eikS s j with ⟨hsk, e⟩ | ⟨ho, hn, hb, e⟩ | ⟨ho, hn, hb, e⟩ | ⟨ho, hn, e⟩
  · rw [e]
    refine ⟨hg, fun _ h => h, ?_⟩
    intro h1 h2
    rcases hsk with h3 | h3
    · rw [h1] at h3; cases h3
    · rw [hocc, h2] at h3; cases h3
  · rw [hocc] at ho
    have hgd := X.eik_good hm hg hj ho
    rw [e]
    refine ⟨goodG_setValue (fun k => by rw [applyHeur_value]; exact hg k) hgd, ?_, ?_⟩
    · intro k hk
      unfold tv; rw [Grid.value_setValue]; split
      · exact hpos ho
      · rw [applyHeur_value]; exact hk
    · intro h1; rw [hn] at h1; cases h1
  · rw [e]
    refine ⟨fun k => by rw [applyHeur_value]; exact hg k, ?_, ?_⟩
    · intro k hk; unfold tv; rw [applyHeur_value]; exact hk
    · intro h1; rw [hn] at h1; cases h1
  · rw [hocc] at ho
    have hgd := X.eik_good hm hg hj ho
    rw [e]
    refine ⟨goodG_setValue (fun k => by rw [Grid.value_setState, applyHeur_value]; exact hg k) hgd, ?_, ?_⟩
    · intro k hk
      unfold tv; rw [Grid.value_setValue]; split
      · exact hpos ho
      · rw [Grid.value_setState, applyHeur_value]; exact hk
    · intro _ _
      unfold tv; rw [Grid.value_setValue, if_pos rfl]; exact hpos ho

theorem tv_fold_pos (X : XInput dims g h v pts) {cfg : Cfg XR} : ∀ (l : List Nat) (s : St XR), (∀ j ∈ l, j < dims.prod) →
    SameMap g s.g → GoodG s.g →
    SameMap g (l.foldl (relax cfg eikS) s).g ∧ GoodG (l.foldl (relax cfg eikS) s).g ∧
      ∀ k, 0 < tv s.g k → 0 < tv (l.foldl (relax cfg eikS) s).g k := by
  intro l
  induction l with
  | nil => intro s _ h1 h2; exact ⟨h1, h2, fun _ h => h⟩
  | cons j l ih =>
    intro s hl h1 h2
    obtain ⟨a1, a2, a3, _⟩ := tv_relax_pos X (cfg := cfg) h1 h2 (hl j (by simp))
    obtain ⟨b1, b2, b3⟩ := ih _ (fun k hk => hl k (by simp [hk])) a1 a2
    exact ⟨b1, b2, fun k hk => b3 k (a3 k hk)⟩

theorem tv_expand_pos (X : XInput dims g h v pts) {cfg : Cfg XR} {s : St XR} (hm : SameMap g s.g) (hg : GoodG s.g) {x : Nat}
    (hx : x < dims.prod) :
    SameMap g (expand cfg eikS s x).g ∧ GoodG (expand cfg eikS s x).g ∧
      (∀ k, 0 < tv s.g k → 0 < tv (expand cfg eikS s x).g k) ∧
      ∀ y ∈ (Shape.mk' dims).nbrs x, g.occ y = false → s.g.state y = .opn → 0 < tv (expand cfg eikS s x).g y := by
  have hsh : s.g.shape = Shape.mk' dims := hm.shape.trans X.shape
  have hl : ∀ j ∈ (Shape.mk' dims).nbrs x, j < dims.prod := fun j hj => FMM.nbr_lt X.fits hx hj
  have hpm := hm.trans (popped_sameMap s x)
  have hpg : GoodG (popped s x).g := by intro k; simp only [popped, Grid.value_setState]; exact hg k
  have hpt : ∀ k, tv (popped s x).g k = tv s.g k := by intro k; unfold tv; simp [popped]
  obtain ⟨b1, b2, b3⟩ := tv_fold_pos X (cfg := cfg) _ _ hl hpm hpg
  rw [← hsh] at b1 b2 b3
  refine ⟨b1, b2, fun k hk => b3 k (by rw [hpt]; exact hk), ?_⟩
  intro y hy ho hop
  have hyx : y ≠ x := by rintro rfl; exact nbrs_irrefl X.fits hx hy
  have hnd := nbrs_nodup X.fits hx
  rw [expand_g, hsh]
  obtain ⟨l1, l2, e⟩ := List.append_of_mem hy
  rw [e] at hnd hl ⊢
  rw [List.foldl_append, List.foldl_cons]
  have hn1 : y ∉ l1 := by
    intro hc
    rw [List.nodup_append] at hnd
    exact hnd.2.2 y hc y (by simp) rfl
  obtain ⟨c1, c2, _⟩ := tv_fold_pos X (cfg := cfg) l1 (popped s x) (fun j hj => hl j (by simp [hj])) hpm hpg
  have hst : (l1.foldl (relax cfg eikS) (popped s x)).g.state y = .opn := by
    refine foldl_inv (I := fun t : St XR => t.g.state y = .opn) _ _ _ ?_ ?_
    · simp [popped, Grid.state_setState, hyx, hop]
    · intro t j hj ht
      unfold Grid.state at *
      rw [relax_cells_ne (by rintro rfl; exact hn1 hj)]; exact ht
  obtain ⟨d1, d2, _, d4⟩ := tv_relax_pos X (cfg := cfg) c1 c2 (j := y) (hl y (by simp))
  exact (tv_fold_pos X (cfg := cfg) l2 _ (fun j hj => hl j (by simp [hj])) d1 d2).2.2 y (d4 hst ho)

/-- **C10 fails without that hypothesis**: with two adjacent free initial points, in every state after the first iteration of any
FMM/SFMM run one of the two no longer has arrival time 0. -/
theorem C10_refuted_adjacent_starts (a b : Nat) (X : XInput dims g h v [a, b]) (hfr : Fresh g) (hoa : g.occ a = false)
    (hob : g.occ b = false) (hadj : AxisAdjacent ((Shape.mk' dims).idx2coord a) ((Shape.mk' dims).idx2coord b)) (cfg : Cfg XR)
    (n : Nat) (s : St XR) (hs : Steps (StepMin cfg) (n + 1) (FMM.init cfg g [] [a, b]) s) :
    s.g.value a ≠ fin 0 ∨ s.g.value b ≠ fin 0 := by
  have haN := X.inside a (by simp)
  have hbN := X.inside b (by simp)
  have hab : b ∈ (Shape.mk' dims).nbrs a := (axisAdjacent_iff X.fits haN).2 ⟨hbN, hadj⟩
  have hba := nbrs_symm X.fits haN hab
  have key : ∀ n s, Steps (StepMin cfg) n (FMM.init cfg g [] [a, b]) s →
      (SameMap g s.g ∧ GoodG s.g ∧ ∀ x ∈ s.heap, x < dims.prod) ∧
      ((n = 0 ∧ s = FMM.init cfg g [] [a, b]) ∨ 0 < tv s.g a ∨ 0 < tv s.g b) := by
    intro n s hs
    have hheap := (FMM.heap_lt (cfg := cfg) (pts := [a,b]) ⟨X.fits, X.shape, X.inside⟩
      (hs.mono (fun _ _ => StepMin.any))).2
    generalize hi : FMM.init cfg g [] [a, b] = s0 at hs
    induction hs with
    | refl =>
      refine ⟨⟨?_, ?_, hheap⟩, Or.inl ⟨rfl, rfl⟩⟩
      · rw [← hi]; exact init_sameMap _ _ _ _
      · intro k; rw [← hi, init_value]; split
        · exact Or.inr ⟨0, le_refl _, rfl⟩
        · rw [hfr.value]; exact Or.inl rfl
    | @tail m s0 t u h1 h2 ih =>
      have hh1 := (FMM.heap_lt (cfg := cfg) (pts := [a,b]) ⟨X.fits, X.shape, X.inside⟩
        (by rw [hi]; exact h1.mono (fun _ _ => StepMin.any))).2
      obtain ⟨⟨i1, i2, i3⟩, ih⟩ := ih hh1 hi
      obtain ⟨_, x, ⟨hx, _⟩, rfl⟩ := h2
      obtain ⟨e1, e2, e3, e4⟩ := tv_expand_pos X (cfg := cfg) i1 i2 (i3 x hx)
      refine ⟨⟨e1, e2, hheap⟩, Or.inr ?_⟩
      rcases ih with ⟨_, rfl⟩ | h3 | h3
      · have hst : ∀ k, t.g.state k = .opn := by intro k; rw [← hi, init_state]; exact hfr.state k
        have : x ∈ [a, b] := by
          rw [← hi, init_heap] at hx
          simpa [or_comm] using hx
        rcases List.mem_pair.1 this with rfl | rfl
        · exact Or.inr (e4 b hab hob (hst b))
        · exact Or.inl (e4 a hba hoa (hst a))
      · exact Or.inl (e3 _ h3)
      · exact Or.inr (e3 _ h3)
  have : ∀ i, 0 < tv s.g i → s.g.value i ≠ fin 0 := by
    intro i hi hc
    unfold tv at hi; rw [hc] at hi; simp at hi
  rcases (key _ _ hs).2 with ⟨h0, _⟩ | h1 | h1
  · omega
  · exact Or.inl (this _ h1)
  · exact Or.inr (this _ h1)

/-! ## C15 -/

theorem FInv_le (X : XInput dims g h v pts) {s : St XR} (I : X.FInv s) {i k : Nat} (hk : k < dims.prod)
    (hfi : s.g.state i = .frozen) (hfk : s.g.state k ≠ .frozen) : Arith.le (s.g.value i) (s.g.value k) = true := by
  have := I.ain.le i k hfi hk hfk
  unfold tv at this
  rcases I.good i with h1 | ⟨r, _, h1⟩ <;> rcases I.good k with h2 | ⟨r', _, h2⟩ <;> rw [h1, h2] at this ⊢
  · rfl
  · simp at this
  · rfl
  · simp only [toT_fin] at this
    have : r ≤ r' := by exact_mod_cast this
    simp [Arith.le, XR.le, this]

/-- **C15** (first half): at any moment of an FMM/SFMM run no FROZEN cell has a larger arrival time than a cell that is not FROZEN. -/
theorem C15_frozen_before_rest (X : XInput dims g h v pts) (hfr : Fresh g) (ha : StartsApart dims g pts) (cfg : Cfg XR)
    (hcfg : cfg.heur = .none) (n : Nat) (s : St XR) (hs : Steps (StepMin cfg) n (FMM.init cfg g [] pts) s) (i k : Nat)
    (hk : k < dims.prod) (hfi : s.g.state i = .frozen) (hfk : s.g.state k ≠ .frozen) :
    Arith.le (s.g.value i) (s.g.value k) = true :=
  FInv_le X (XInput.FInv.reach X (ha.nonAdj X) hfr hcfg hs) hk hfi hfk

theorem expand_value_x {cfg : Cfg XR} {eik : Eik XR} {s : St XR} {x : Nat} : (expand cfg eik s x).g.value x = s.g.value x := by
  have := expand_inv (I := fun t : St XR => t.g.value x = s.g.value x ∧ t.g.state x = .frozen) cfg eik s x (fun _ _ h => h)
    (by simp [popped, Grid.state_setState])
    (by intro t j _ ht
        unfold Grid.value Grid.state at *
        rw [relax_cells_protected (Or.inl ht.2)]; exact ht)
  exact this.1

/-- **C15**: cells are frozen in order of non-decreasing arrival time: if `i` is FROZEN at some moment and `k` is frozen only later,
then the (final) time of `k` is at least that of `i`. -/
theorem C15_monotone_freezing (X : XInput dims g h v pts) (hfr : Fresh g) (ha : StartsApart dims g pts) (cfg : Cfg XR)
    (hcfg : cfg.heur = .none) (n m : Nat) (s t : St XR) (hs : Steps (StepMin cfg) n (FMM.init cfg g [] pts) s)
    (ht : Steps (StepMin cfg) m s t) (i k : Nat) (hfi : s.g.state i = .frozen) (hfk : s.g.state k ≠ .frozen)
    (hfk' : t.g.state k = .frozen) : Arith.le (t.g.value i) (t.g.value k) = true := by
  have hI := XInput.FInv.reach X (ha.nonAdj X) hfr hcfg hs
  have key := Steps.inv (r := StepMin cfg) (I := fun u : St XR => X.FInv u ∧ u.g.state i = .frozen ∧
      (u.g.state k = .frozen → Arith.le (u.g.value i) (u.g.value k) = true)) ?_ ht
      ⟨hI, hfi, fun hc => absurd hc hfk⟩
  · exact key.2.2 hfk'
  · rintro u w ⟨I, h1, h2⟩ hst
    refine ⟨XInput.FInv.step X (ha.nonAdj X) hcfg I hst, ?_⟩
    obtain ⟨_, x, ⟨hx, _⟩, rfl⟩ := hst
    have e := expand_frozen (cfg := cfg) (eik := eikS) (x := x) h1
    refine ⟨by unfold Grid.state at *; rw [e]; exact h1, ?_⟩
    intro hk
    have ev : (expand cfg eikS u x).g.value i = u.g.value i := by unfold Grid.value; rw [e]
    rw [ev]
    by_cases hku : u.g.state k = .frozen
    · have e' := expand_frozen (cfg := cfg) (eik := eikS) (x := x) hku
      have ev' : (expand cfg eikS u x).g.value k = u.g.value k := by unfold Grid.value; rw [e']
      rw [ev']; exact h2 hku
    · rcases expand_frozen_iff.1 hk with h3 | rfl
      · exact absurd h3 hku
      · rw [expand_value_x]
        exact FInv_le X I (I.ain.heapN k hx) h1 hku

/-! ## C18, C16 -/

theorem lower_relax (X : XInput dims g h v pts) {U : Nat → WithTop ℝ} (hU : X.problem.IsSolution U) {cfg : Cfg XR} {s : St XR}
    (hm : SameMap g s.g) (hg : GoodG s.g) (hL : ∀ j, j < dims.prod → U j ≤ tv s.g j) {j : Nat} (hj : j < dims.prod) :
    ∀ k, k < dims.prod → U k ≤ tv (relax cfg eikS s j).g k := by
  have hocc : s.g.occ j = g.occ j := SameMap.occ_eq hm j
  have hlow : g.occ j = false → U j ≤ toT (eikS s.g j).1 := by
    intro ho
    rw [X.eik_eq hm hg hj ho]
    simp only [toT_ofT]
    exact X.lower hU hL hj ho _
  intro k hk
  rcases relax_cases cfg eikS s j with ⟨hsk, e⟩ | ⟨ho, hn, hb, e⟩ | ⟨ho, hn, hb, e⟩ | ⟨ho, hn, e⟩ <;> rw [e]
  · exact hL k hk
  · unfold tv; rw [Grid.value_setValue]; split
    · next hkj => rw [hkj]; exact hlow (by rw [← hocc]; exact ho)
    · rw [applyHeur_value]; exact hL k hk
  · unfold tv; rw [applyHeur_value]; exact hL k hk
  · unfold tv; rw [Grid.value_setValue]; split
    · next hkj => rw [hkj]; exact hlow (by rw [← hocc]; exact ho)
    · rw [Grid.value_setState, applyHeur_value]; exact hL k hk

structure LowInv (X : XInput dims g h v pts) (U : Nat → WithTop ℝ) (s : St XR) : Prop where
  map : SameMap g s.g
  good : GoodG s.g
  low : ∀ j, j < dims.prod → U j ≤ tv s.g j
  heap : ∀ x ∈ s.heap, x < dims.prod

theorem LowInv.reach (X : XInput dims g h v pts) (hfr : Fresh g) {U : Nat → WithTop ℝ} (hU : X.problem.IsSolution U) {cfg : Cfg XR}
    {n : Nat} {s : St XR} (hs : Steps (StepLib cfg) n (FMM.init cfg g [] pts) s) : LowInv X U s := by
  refine Steps.inv (r := StepLib cfg) (I := LowInv X U) ?_ hs ?_
  · rintro s t I ⟨_, x, hx, rfl⟩
    have hsh : s.g.shape = Shape.mk' dims := I.map.shape.trans X.shape
    refine expand_inv (I := LowInv X U) cfg eikS s x (fun t b h => ⟨h.map, h.good, h.low, h.heap⟩) ?_ ?_
    · refine ⟨I.map.trans (popped_sameMap s x), ?_, ?_, ?_⟩
      · intro k; simp only [popped, Grid.value_setState]; exact I.good k
      · intro k hk; unfold tv; simp only [popped, Grid.value_setState]; exact I.low k hk
      · intro y hy; exact I.heap y (List.mem_of_mem_erase hy)
    · intro t j hj J
      have hjN : j < dims.prod := FMM.nbr_lt X.fits (I.heap x hx) (by rw [← hsh]; exact hj)
      obtain ⟨a1, a2, _⟩ := tv_relax_pos X (cfg := cfg) J.map J.good hjN
      refine ⟨a1, a2, lower_relax X hU J.map J.good J.low hjN, ?_⟩
      intro y hy
      rcases relax_heap_mem hy with h1 | ⟨rfl, _⟩
      · exact J.heap y h1
      · exact hjN
  · refine ⟨init_sameMap _ _ _ _, ?_, ?_, ?_⟩
    · intro k; rw [init_value]; split
      · exact Or.inr ⟨0, le_refl _, rfl⟩
      · rw [hfr.value]; exact Or.inl rfl
    · intro k hk; unfold tv; rw [init_value]; split
      · next hp => rw [((X.exSol hU) k hk).1 hp]; exact le_refl _
      · rw [hfr.value]; exact le_top
    · intro y hy; rw [init_heap] at hy; exact X.inside y (by simpa using hy)

/-- **C18** for FMM, SFMM, FMM*, SFMM*: in no state of any run, with any heuristic, any queue order (even a broken one) and any initial
points, is an arrival time below the exact solution `U` of the discretised Eikonal equation; times are never NaN nor negative. -/
theorem C18_FMM (X : XInput dims g h v pts) (hfr : Fresh g) (U : Nat → WithTop ℝ) (hU : X.problem.IsSolution U) (cfg : Cfg XR)
    (n : Nat) (s : St XR) (hs : Steps (StepLib cfg) n (FMM.init cfg g [] pts) s) (i : Nat) (hi : i < dims.prod) :
    GoodT (s.g.value i) ∧ U i ≤ toT (s.g.value i) :=
  ⟨(LowInv.reach X hfr hU hs).good i, (LowInv.reach X hfr hU hs).low i hi⟩

/-- **C16**: when FMM (or SFMM with an ordered queue) ends with an empty narrow band, every arrival time is between the exact solution and the exact solution plus
twice the comparison margin per cell of the grid; in particular cells the exact wave does not reach have time `+inf`, and all others
are reached. -/
theorem C16_FMM_final (X : XInput dims g h v pts) (hfr : Fresh g) (ha : StartsApart dims g pts) (U : Nat → WithTop ℝ)
    (hU : X.problem.IsSolution U) (cfg : Cfg XR) (hcfg : cfg.heur = .none) (n : Nat) (s : St XR)
    (hs : Steps (StepMin cfg) n (FMM.init cfg g [] pts) s) (hend : s.heap = []) (i : Nat) (hi : i < dims.prod) :
    GoodT (s.g.value i) ∧ U i ≤ toT (s.g.value i) ∧
      toT (s.g.value i) ≤ U i + ((dims.prod * (2 * eps) : ℝ) : WithTop ℝ) := by
  have I := XInput.FInv.reach X (ha.nonAdj X) hfr hcfg hs
  obtain ⟨l1, l2⟩ := C18_FMM X hfr U hU cfg n s (hs.mono (fun _ _ => StepMin.lib)) i hi
  refine ⟨l1, l2, ?_⟩
  have A := I.ain
  have hnn : ∀ k, s.g.state k ≠ .narrow := by
    intro k hk; have := (A.nar k hk).1; rw [hend] at this; simp at this
  have hfp : ∀ k ∈ pts, s.g.state k = .frozen := by
    intro k hk
    rcases (A.ini k hk).2 with h1 | h1
    · exact h1
    · rw [hend] at h1; simp at h1
  have hnf : ∀ k, s.g.state k ≠ .frozen → tv s.g k = ⊤ := by
    intro k hk
    cases hst : s.g.state k with
    | frozen => exact absurd hst hk
    | narrow => exact absurd hst (hnn k)
    | opn => exact A.opn k hst (fun hp => hk (hfp k hp))
  have hTf : XInput.Tf (tv s.g) s.g.state = tv s.g := by
    funext k; unfold XInput.Tf; split
    · rfl
    · next hk => exact (hnf k hk).symm
  refine X.accuracy hU (by linarith [eps_pos]) (fun k hk => le_of_eq (A.ini k hk).1) ?_ i hi
  intro j hj ho hjp Y hY
  by_cases hjf : s.g.state j = .frozen
  · exact A.pf j hjf hjp Y (by rw [hTf]; exact hY)
  · exfalso
    have hall : ∀ m ∈ mins (Shape.mk' dims) (tv s.g) j, m = ⊤ := by
      intro m hm
      by_contra hne
      obtain ⟨k, hk, e⟩ := XInput.mem_mins hm hne
      have hkf : s.g.state k = .frozen := by
        by_contra hh; rw [hnf k hh] at e; exact hne e
      rcases A.closed k j hkf (nbrs_symm X.fits hj hk) ho hjp with h1 | h1
      · exact hjf h1
      · exact hnn j h1
    have hz : residL Y (mins (Shape.mk' dims) (tv s.g) j) = 0 := by
      generalize mins (Shape.mk' dims) (tv s.g) j = ms at hall
      clear hY
      induction ms with
      | nil => simp
      | cons m ms ih =>
        rw [residL_cons, hall m (by simp), posSq_top, ih (fun m hm => hall m (by simp [hm])), zero_add]
    rw [hz] at hY
    have := X.csq hj ho
    linarith

/-- the exact solution at a reached free cell has an upwind neighbour -/
theorem exists_upwind (X : XInput dims g h v pts) {U : Nat → WithTop ℝ} {i : Nat} (hi : i < dims.prod) (ho : g.occ i = false) {r : ℝ}
    (f2 : residL r (mins (Shape.mk' dims) U i) = (h / v i)^2) : ∃ j ∈ (Shape.mk' dims).nbrs i, U j < (r : WithTop ℝ) := by
  by_contra hcon
  push Not at hcon
  have hz : residL r (mins (Shape.mk' dims) U i) = 0 := by
    have hall : ∀ m ∈ mins (Shape.mk' dims) U i, (r : WithTop ℝ) ≤ m := by
      intro m hm
      unfold mins at hm
      rw [List.mem_map] at hm
      obtain ⟨k, hk, rfl⟩ := hm
      apply le_dimMin
      intro j hj
      exact hcon j (mem_nbrs.2 ⟨k, List.mem_range.1 hk, hj⟩)
    generalize mins (Shape.mk' dims) U i = ms at hall
    clear f2
    induction ms with
    | nil => simp
    | cons m ms ihm =>
      rw [residL_cons, posSq_eq_zero (hall m (by simp)), ihm (fun m hm => hall m (by simp [hm])), zero_add]
  have := X.csq hi ho
  rw [hz] at f2
  linarith

/-- `(c/v)^2 ≤ residL (r + D)` for times that exceed the exact ones by at most `D` at the upwind neighbours -/
theorem resid_shift (X : XInput dims g h v pts) {U W : Nat → WithTop ℝ} {i : Nat} (hi : i < dims.prod) {r D : ℝ}
    (f2 : residL r (mins (Shape.mk' dims) U i) = (h / v i)^2)
    (hW : ∀ j ∈ (Shape.mk' dims).nbrs i, U j < (r : WithTop ℝ) → W j ≤ U j + (D : WithTop ℝ)) :
    (h / v i)^2 ≤ residL (r + D) (mins (Shape.mk' dims) W i) := by
  rw [← f2]
  unfold mins
  apply residL_le_map
  intro k hk
  rcases lt_or_ge (dimMin (Shape.mk' dims) U i k) (r : WithTop ℝ) with hlt | hge
  · obtain ⟨j, hj, hje⟩ := dimMin_attained (s := Shape.mk' dims) (T := U) (i := i) (k := k) (ne_top_of_lt hlt)
    rw [hje] at hlt
    have hTj := hW j (mem_nbrs.2 ⟨k, List.mem_range.1 hk, hj⟩) hlt
    cases hUj : U j with
    | top => rw [hUj] at hlt; exact absurd hlt not_top_lt
    | coe m =>
      rw [hUj] at hTj
      rw [hje, hUj, ← posSq_shift r D m]
      refine posSq_anti _ (le_trans (dimMin_le hj) (le_trans hTj ?_))
      exact_mod_cast le_refl _
  · rw [posSq_eq_zero hge]; exact posSq_nonneg _ _

/-- accuracy of the frozen cells at any moment, and a lower bound for the exact time of all others -/
theorem anytime (X : XInput dims g h v pts) {U : Nat → WithTop ℝ} (hU : X.problem.IsSolution U) {T : Nat → WithTop ℝ}
    {st : Nat → FMState} {heap : List Nat} (A : X.AInv T st heap) {θ : ℝ} (h1 : ∀ i, st i = .frozen → T i ≤ (θ : WithTop ℝ))
    (h2 : ∀ j, j < dims.prod → st j ≠ .frozen → (θ : WithTop ℝ) ≤ T j) :
    ∀ n i, i < dims.prod → XInput.rank dims.prod U i = n →
      (st i = .frozen → T i ≤ U i + ((2 * eps * n : ℝ) : WithTop ℝ)) ∧
      (st i ≠ .frozen → (θ : WithTop ℝ) ≤ U i + ((2 * eps * n : ℝ) : WithTop ℝ)) := by
  have hE := X.exSol hU
  have he := eps_pos
  intro n
  induction n using Nat.strong_induction_on with
  | _ n ih =>
    intro i hi hn
    obtain ⟨e1, e2, e3⟩ := hE i hi
    have hn0 : (0:ℝ) ≤ 2 * eps * n := by positivity
    have hn0' : (0 : WithTop ℝ) ≤ ((2 * eps * n : ℝ) : WithTop ℝ) := by exact_mod_cast hn0
    by_cases hs : i ∈ pts
    · rw [e1 hs, zero_add]
      refine ⟨fun _ => ?_, fun hf => ?_⟩
      · rw [(A.ini i hs).1]; exact hn0'
      · have := h2 i hi hf
        rw [(A.ini i hs).1] at this
        exact le_trans this hn0'
    cases ho : g.occ i with
    | true => rw [e2 hs ho]; simp
    | false =>
      rcases e3 hs (by simp [ho]) with ⟨r, f1, f2⟩ | ⟨f1, _⟩
      · obtain ⟨j0, hj0, hj0r⟩ := exists_upwind X hi ho f2
        have hj0N := FMM.nbr_lt X.fits hi hj0
        have hn1 : 1 ≤ n := by
          have := XInput.rank_lt (U := U) (i := i) hj0N (by rw [f1]; exact hj0r)
          omega
        let D : ℝ := 2 * eps * ((n:ℝ) - 1)
        have hn1' : (1:ℝ) ≤ n := by exact_mod_cast hn1
        have hD : 0 ≤ D := mul_nonneg (by linarith) (by linarith)
        have hrank : ∀ j ∈ (Shape.mk' dims).nbrs i, U j < (r : WithTop ℝ) →
            (st j = .frozen → T j ≤ U j + (D : WithTop ℝ)) ∧ (st j ≠ .frozen → (θ : WithTop ℝ) ≤ U j + (D : WithTop ℝ)) := by
          intro j hj hjr
          have hjN := FMM.nbr_lt X.fits hi hj
          have hr := XInput.rank_lt (U := U) (i := i) hjN (by rw [f1]; exact hjr)
          obtain ⟨a1, a2⟩ := ih (XInput.rank dims.prod U j) (by omega) j hjN rfl
          have h5 : (XInput.rank dims.prod U j : ℝ) + 1 ≤ n := by
            have : XInput.rank dims.prod U j + 1 ≤ n := by omega
            exact_mod_cast this
          have h6 : 2 * eps * (XInput.rank dims.prod U j : ℝ) ≤ D :=
            mul_le_mul_of_nonneg_left (by linarith) (by linarith)
          have h7 : U j + ((2 * eps * (XInput.rank dims.prod U j : ℝ) : ℝ) : WithTop ℝ) ≤ U j + (D : WithTop ℝ) := by
            gcongr; exact_mod_cast h6
          exact ⟨fun hf => le_trans (a1 hf) h7, fun hf => le_trans (a2 hf) h7⟩
        have hfinal : (r + D + 2 * eps : ℝ) = r + 2 * eps * n := by simp only [D]; ring
        by_cases hall : ∀ j ∈ (Shape.mk' dims).nbrs i, U j < (r : WithTop ℝ) → st j = .frozen
        · refine ⟨fun hf => ?_, fun hf => ?_⟩
          · have hres := resid_shift X (W := XInput.Tf T st) hi f2 (D := D) (by
              intro j hj hjr
              unfold XInput.Tf; rw [if_pos (hall j hj hjr)]
              exact (hrank j hj hjr).1 (hall j hj hjr))
            have := A.pf i hf hs _ hres
            rw [f1]
            rw [hfinal] at this
            exact_mod_cast this
          · have hnar : st i = .narrow := by
              rcases A.closed j0 i (hall j0 hj0 hj0r) (nbrs_symm X.fits hi hj0) ho hs with h3 | h3
              · exact absurd h3 hf
              · exact h3
            obtain ⟨W, w1, w2, w3⟩ := A.snap i hnar
            have hres := resid_shift X (W := W) hi f2 (D := D) (by
              intro j hj hjr
              rw [w1 j (FMM.nbr_lt X.fits hi hj) (hall j hj hjr)]
              exact (hrank j hj hjr).1 (hall j hj hjr))
            obtain ⟨u, hu, huY⟩ := upd_upper (X.cpos hi ho) (WithTop.coe_lt_top (r + D)) hres
            rw [hu] at w3
            refine le_trans (h2 i hi hf) (le_trans w3 ?_)
            rw [f1]
            have : u + eps ≤ r + 2 * eps * n := by linarith
            exact_mod_cast this
        · push Not at hall
          obtain ⟨j, hj, hjr, hjf⟩ := hall
          have hθ : (θ : WithTop ℝ) ≤ U i + ((2 * eps * n : ℝ) : WithTop ℝ) := by
            refine le_trans ((hrank j hj hjr).2 hjf) ?_
            rw [f1]
            have : (D : WithTop ℝ) ≤ ((2 * eps * n : ℝ) : WithTop ℝ) := by
              have : D ≤ 2 * eps * n := by linarith
              exact_mod_cast this
            exact add_le_add hjr.le this
          exact ⟨fun hf => le_trans (h1 i hf) hθ, fun _ => hθ⟩
      · rw [f1]; simp

/-- **C16** at any moment (in particular when the wave stops at a goal): the arrival time of every FROZEN cell is between the exact one and
the exact one plus twice the comparison margin per cell of the grid. -/
theorem C16_FMM_frozen (X : XInput dims g h v pts) (hfr : Fresh g) (ha : StartsApart dims g pts) (U : Nat → WithTop ℝ)
    (hU : X.problem.IsSolution U) (cfg : Cfg XR) (hcfg : cfg.heur = .none) (n : Nat) (s : St XR)
    (hs : Steps (StepMin cfg) n (FMM.init cfg g [] pts) s) (i : Nat) (hf : s.g.state i = .frozen) :
    U i ≤ toT (s.g.value i) ∧ toT (s.g.value i) ≤ U i + ((dims.prod * (2 * eps) : ℝ) : WithTop ℝ) := by
  have I := XInput.FInv.reach X (ha.nonAdj X) hfr hcfg hs
  have A := I.ain
  have hi := A.fzN i hf
  obtain ⟨_, l2⟩ := C18_FMM X hfr U hU cfg n s (hs.mono (fun _ _ => StepMin.lib)) i hi
  refine ⟨l2, ?_⟩
  obtain ⟨i0, hi0, hmax⟩ := Finset.exists_max_image ((Finset.range dims.prod).filter (fun k => s.g.state k = .frozen)) (tv s.g)
      ⟨i, by simp [hi, hf]⟩
  rw [Finset.mem_filter, Finset.mem_range] at hi0
  cases hTi : tv s.g i0 with
  | top => exact absurd hTi (A.finF i0 hi0.2)
  | coe θ =>
    have := (anytime X hU A (θ := θ) (fun k hk => by
        rw [← hTi]; exact hmax k (by simp [A.fzN k hk, hk]))
      (fun j hj hjf => by rw [← hTi]; exact A.le i0 j hi0.2 hj hjf) _ i hi rfl).1 hf
    refine le_trans this ?_
    gcongr
    have h1 : (XInput.rank dims.prod U i : ℝ) ≤ dims.prod := by exact_mod_cast XInput.rank_le _ _ _
    have h2 := eps_pos
    have : 2 * eps * (XInput.rank dims.prod U i : ℝ) ≤ dims.prod * (2 * eps) := by nlinarith
    exact_mod_cast this

/-- non-vacuity of the hypotheses used in this file: an empty 3x3 grid with unit cells and speed, starts in two opposite corners; a finished run
exists. -/
example : ∃ (g : Grid XR), XInput [3,3] g 1 (fun _ => 1) [0, 8] ∧ Fresh g ∧ StartsApart [3,3] g [0, 8] ∧
    ∃ n s, Steps (StepMin ⟨false, .none, fun _ => fin 0, noGoal⟩) n (FMM.init ⟨false, .none, fun _ => fin 0, noGoal⟩ g [] [0,8]) s ∧
      s.heap = [] := by
  refine ⟨Grid.create [3,3] (fin 1) (0,0), ⟨⟨by decide, by decide, by decide⟩, by decide, rfl, by decide, one_pos, rfl, fun _ _ _ => rfl⟩,
    ⟨fun _ => rfl, fun _ => rfl, fun _ => rfl⟩, ?_, ?_⟩
  · intro i hi j hj _ hadj
    obtain ⟨k, h0, h1, h2, h3⟩ := hadj
    fin_cases hi <;> fin_cases hj <;> revert h1 h2 h3 <;> (intro h1 h2 h3)
    all_goals
      have h4 : k = 0 ∨ k = 1 := by
        have : k < 2 := h1
        omega
      rcases h4 with rfl | rfl <;> revert h2 <;> decide
  · have hin : Input [3,3] (Grid.create [3,3] (fin 1) (0,0)) [0, 8] := ⟨⟨by decide, by decide, by decide⟩, rfl, by decide⟩
    obtain ⟨n, s, _, hs, hd⟩ := C13_FMM_terminates XR.ltLaws ⟨false, .none, fun _ => fin 0, noGoal⟩ rfl [3,3] _ [0, 8] hin
    exact ⟨n, s, hs, C14_no_goal_ends_empty _ _ _ _ hin (by decide) n s (hs.mono (fun _ _ => StepMin.any)) hd⟩

end FMV
