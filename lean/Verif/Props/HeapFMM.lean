import Verif.Lemmas.Band
import Verif.Props.Heap
import Verif.Props.FMMTerm
import Verif.Props.HeurRun
/-!
# C57: FMM and FMM* with their real binary heap

The results about FMM are proved for a loop in which the narrow band is a bag that returns one of its smallest elements (`StepMin`). Here the loop runs with any
narrow band that meets its contract, in particular with `FMDaryHeap` over the arrays of `boost::heap::d_ary_heap`, and the same results follow.
-/
set_option linter.unusedSectionVars false
set_option linter.unusedVariables false
namespace FMV
open Spec Shape XR FMM
variable {dims : List Nat} {g : Grid XR} {h : ℝ} {v : Nat → ℝ} {pts : List Nat} {B : Type}

/-- the numbers that are not NaN -/
def Number (x : XR) : Prop := x ≠ .nan

namespace FMM

/-- what the runs of FMM and FMM* have in common -/
structure KInv (dims : List Nat) (g : Grid XR) (pts : List Nat) (cfg : Cfg XR) (s : St XR) : Prop where
  map : SameMap g s.g
  good : GoodG s.g
  hinv : HInv cfg g pts s
  hp : ∀ y ∈ s.heap, y < dims.prod ∧ (y ∈ pts ∨ g.occ y = false)
  nar : ∀ y, s.g.state y = .narrow → y ∈ s.heap

/-- heuristic values are finite numbers -/
def FinHeur (dims : List Nat) (g : Grid XR) (pts : List Nat) (cfg : Cfg XR) : Prop :=
  ∀ i, i < dims.prod → (i ∈ pts ∨ g.occ i = false) → ∃ r : ℝ, heurOf cfg g i = fin r

theorem finHeur_none {cfg : Cfg XR} (hc : cfg.heur = .none) : FinHeur dims g pts cfg := by
  intro i _ _; refine ⟨0, ?_⟩; unfold heurOf; rw [hc]; rfl

theorem key_eq {cfg : Cfg XR} {s : St XR} (I : KInv dims g pts cfg s) {y : Nat} (hy : y ∈ s.heap) :
    key s.g y = Arith.add (s.g.value y) (heurOf cfg g y) := by
  unfold key
  rw [I.hinv.lab y (I.hinv.hp y hy)]; rfl

theorem KInv.number {cfg : Cfg XR} (hH : FinHeur dims g pts cfg) {s : St XR} (I : KInv dims g pts cfg s) :
    ∀ y ∈ s.heap, Number (key s.g y) := by
  intro y hy
  rw [key_eq I hy]
  obtain ⟨r, e⟩ := hH y (I.hp y hy).1 (I.hp y hy).2
  rw [e]
  unfold Number
  rcases I.good y with h1 | ⟨t, _, h1⟩ <;> rw [h1] <;> simp [Arith.add, XR.add]

theorem KInv.relax (X : XInput dims g h v pts) {cfg : Cfg XR} {s : St XR} (I : KInv dims g pts cfg s) {j : Nat} (hj : j < dims.prod) :
    KInv dims g pts cfg (FMM.relax cfg eikS s j) := by
  obtain ⟨a1, a2, _⟩ := tv_relax_pos X (cfg := cfg) I.map I.good hj
  refine ⟨a1, a2, I.hinv.relax eikS j, ?_, ?_⟩
  · intro y hy
    rcases relax_heap_mem hy with h1 | ⟨rfl, ho⟩
    · exact I.hp y h1
    · exact ⟨hj, .inr (by rw [← SameMap.occ_eq I.map]; exact ho)⟩
  · intro y hy
    rw [relax_state] at hy
    split at hy
    · next hh =>
      obtain ⟨rfl, h1, h2⟩ := hh
      rcases relax_cases cfg eikS s y with ⟨h', _⟩ | ⟨_, hn, _, _⟩ | ⟨_, hn, _, _⟩ | ⟨_, _, e⟩
      · rcases h' with h' | h'
        · rw [h1] at h'; cases h'
        · rw [h2] at h'; cases h'
      · rw [h1] at hn; cases hn
      · rw [h1] at hn; cases hn
      · rw [e]; simp
    · exact relax_heap_sub (I.nar y hy)

theorem KInv.popped {cfg : Cfg XR} {s : St XR} (I : KInv dims g pts cfg s) {x : Nat} (hx : x ∈ s.heap) : KInv dims g pts cfg (popped s x) := by
  refine ⟨I.map.trans (popped_sameMap s x), ?_, ?_, fun y hy => I.hp y (List.mem_of_mem_erase hy), ?_⟩
  · intro k; simp only [FMM.popped, Grid.value_setState]; exact I.good k
  · refine ⟨I.map.trans (popped_sameMap s x), ?_, ?_, ?_⟩
    · intro i hi
      simp only [FMM.popped, hValue_setState, Grid.state_setState] at hi ⊢
      by_cases h1 : i ∈ pts ∨ s.g.state i ≠ .opn
      · exact I.hinv.lab i h1
      · push Not at h1
        rcases hi with h2 | h2
        · exact absurd h2 h1.1
        · split at h2
          · next hix =>
            subst hix
            exact I.hinv.lab i (I.hinv.hp i hx)
          · exact absurd h1.2 h2
    · intro i h1 h2
      simp only [FMM.popped, hValue_setState, Grid.state_setState] at h2 ⊢
      split at h2
      · cases h2
      · exact I.hinv.unl i h1 h2
    · intro y hy
      rcases I.hinv.hp y (List.mem_of_mem_erase hy) with h1 | h1
      · exact .inl h1
      · right
        simp only [FMM.popped, Grid.state_setState]
        split
        · simp
        · exact h1
  · intro y hy
    simp only [FMM.popped, Grid.state_setState] at hy ⊢
    split at hy
    · cases hy
    · next hne => exact (List.mem_erase_of_ne hne).2 (I.nar y hy)

theorem KInv.start (X : XInput dims g h v pts) (hfr : Fresh g) (cfg : Cfg XR) : KInv dims g pts cfg (FMM.init cfg g [] pts) := by
  refine ⟨init_sameMap _ _ _ _, ?_, HInv.start cfg hfr pts, ?_, ?_⟩
  · intro k; rw [init_value]; split
    · exact Or.inr ⟨0, le_refl _, rfl⟩
    · rw [hfr.value]; exact Or.inl rfl
  · intro y hy; rw [init_heap] at hy
    have : y ∈ pts := by simpa using hy
    exact ⟨X.inside y this, .inl this⟩
  · intro y hy; rw [init_state, hfr.state] at hy; cases hy

theorem add_fin_le {a b : XR} (ha : GoodT a) (hb : GoodT b) (hab : Arith.better a b = true) (r : ℝ) :
    Arith.lt (Arith.add b (fin r)) (Arith.add a (fin r)) = false := by
  have := eps_pos
  rcases ha with rfl | ⟨s, _, rfl⟩ <;> rcases hb with rfl | ⟨t, _, rfl⟩ <;>
    simp [Arith.better, Arith.lt, Arith.add, XR.add, XR.lt, Arith.margin] at hab ⊢
  linarith

/-- visiting a neighbour respects the contract of the narrow band -/
theorem KInv.safe (X : XInput dims g h v pts) {cfg : Cfg XR} (hH : FinHeur dims g pts cfg) {s : St XR} (I : KInv dims g pts cfg s) {j : Nat}
    (hj : j < dims.prod) (hopn : s.g.state j = .opn → s.g.occ j = false → j ∉ s.heap) : Safe cfg eikS Number dims.prod s j := by
  have I' := I.relax X (cfg := cfg) hj
  have hocc : s.g.occ j = g.occ j := SameMap.occ_eq I.map j
  refine ⟨hj, hopn, I.nar j, I.number hH, I'.number hH, ?_, ?_⟩
  · intro hn ho hb
    have hjh := I.nar j hn
    have hval : (FMM.relax cfg eikS s j).g.value j = (eikS s.g j).1 := by
      rcases relax_cases cfg eikS s j with ⟨hsk, e⟩ | ⟨_, _, _, e⟩ | ⟨_, _, hb', e⟩ | ⟨_, hn', e⟩
      · rw [hn, ho] at hsk; simp at hsk
      · rw [e]; simp [Grid.value_setValue]
      · rw [hb] at hb'; cases hb'
      · rw [hn] at hn'; cases hn'
    rw [key_eq I hjh, key_eq I' (relax_heap_sub hjh), hval]
    obtain ⟨r, e⟩ := hH j hj (.inr (by rw [← hocc]; exact ho))
    rw [e]
    exact add_fin_le (X.eik_good I.map I.good hj (by rw [← hocc]; exact ho)) (I.good j) hb r
  · intro hn ho hb
    have hjh := I.nar j hn
    have hval : (FMM.relax cfg eikS s j).g.value j = s.g.value j := by
      rcases relax_cases cfg eikS s j with ⟨hsk, e⟩ | ⟨_, _, hb', e⟩ | ⟨_, _, _, e⟩ | ⟨_, hn', e⟩
      · rw [hn, ho] at hsk; simp at hsk
      · rw [hb] at hb'; cases hb'
      · rw [e]; simp
      · rw [hn] at hn'; cases hn'
    rw [key_eq I hjh, key_eq I' (relax_heap_sub hjh), hval]

/-! the initial points -/

theorem initPoint_cell {F : Type} [Arith F] (cfg : Cfg F) {g g' : Grid F} {i : Nat} (hc : g'.cells i = g.cells i) :
    (applyHeur cfg (g'.setValue i Arith.zero) i).cells i = (applyHeur cfg (g.setValue i Arith.zero) i).cells i := by
  unfold applyHeur Grid.setH Grid.setValue Grid.vel
  cases cfg.heur <;> simp [Grid.modify, hc]

theorem initPoint_cells_ne {F : Type} [Arith F] (cfg : Cfg F) (g : Grid F) {i k : Nat} (hk : k ≠ i) :
    (applyHeur cfg (g.setValue i Arith.zero) i).cells k = g.cells k := by
  rw [applyHeur_cells_ne _ _ hk, cells_setValue_ne _ _ hk]

theorem Rel.init {F : Type} [Arith F] (N : Band F B) (b0 : B) (W : F → Prop) (n : Nat) (cfg : Cfg F) (g0 : Grid F) (hlt : ∀ i ∈ pts, i < n)
    (hnd : pts.Nodup) (hW : ∀ i ∈ pts, W (key (applyHeur cfg (g0.setValue i Arith.zero) i) i)) :
    Rel N b0 W n (bInit N cfg g0 b0 pts) (FMM.init cfg g0 [] pts) := by
  have : ∀ (todo : List Nat) (c : BSt F B) (s : St F), todo.Nodup → (∀ i ∈ todo, i ∉ s.heap ∧ i < n ∧ s.g.cells i = g0.cells i) →
      (∀ i ∈ todo, W (key (applyHeur cfg (g0.setValue i Arith.zero) i) i)) → (∀ y ∈ s.heap, W (key s.g y)) → Rel N b0 W n c s →
      Rel N b0 W n (todo.foldl (bInitPoint N cfg) c) (todo.foldl (initPoint cfg) s) := by
    intro todo
    induction todo with
    | nil => intro c s _ _ _ _ R; exact R
    | cons i todo ih =>
      intro c s hnd hto hWi hWs R
      rw [List.nodup_cons] at hnd
      rw [List.foldl_cons, List.foldl_cons]
      obtain ⟨hg, hs, l, u, hp⟩ := R
      have hi := hto i (by simp)
      have hil : i ∉ l := fun h => hi.1 (hp.mem_iff.1 h)
      have hkey : ∀ y, y ≠ i → key (applyHeur cfg (s.g.setValue i Arith.zero) i) y = key s.g y := by
        intro y hy; unfold key; rw [initPoint_cells_ne cfg _ hy]
      have hkeyi : key (applyHeur cfg (s.g.setValue i Arith.zero) i) i = key (applyHeur cfg (g0.setValue i Arith.zero) i) i := by
        unfold key; rw [initPoint_cell cfg hi.2.2]
      refine ih _ _ hnd.2 ?_ (fun k hk => hWi k (by simp [hk])) ?_ ⟨?_, hs, i :: l, ?_, hp.cons i⟩
      · intro k hk
        have hki : k ≠ i := fun h => hnd.1 (h ▸ hk)
        have hk' := hto k (by simp [hk])
        refine ⟨?_, hk'.2.1, ?_⟩
        · show k ∉ i :: s.heap
          rw [List.mem_cons]; push Not; exact ⟨hki, hk'.1⟩
        · show (applyHeur cfg (s.g.setValue i Arith.zero) i).cells k = _
          rw [initPoint_cells_ne cfg _ hki]; exact hk'.2.2
      · intro y hy
        show W (key (applyHeur cfg (s.g.setValue i Arith.zero) i) y)
        rcases List.mem_cons.1 (show y ∈ i :: s.heap from hy) with rfl | hy
        · rw [hkeyi]; exact hWi y (by simp)
        · have hyi : y ≠ i := fun h => hi.1 (h ▸ hy)
          rw [hkey y hyi]; exact hWs y hy
      · simp only [bInitPoint, initPoint]; rw [hg]
      · show Used N b0 W n (applyHeur cfg (c.g.setValue i Arith.zero) i) (N.push (applyHeur cfg (c.g.setValue i Arith.zero) i) c.b i) (i :: l)
        rw [hg] at u ⊢
        refine Used.push i (Used.change _ u (fun y hy => hkey y (fun h => hil (h ▸ hy)))) hil hi.2.1 ?_
        intro y hy
        rcases List.mem_cons.1 hy with rfl | hy
        · rw [hkeyi]; exact hWi y (by simp)
        · have hyi : y ≠ i := fun h => hil (h ▸ hy)
          rw [hkey y hyi]; exact hWs y (hp.mem_iff.1 hy)
  refine this pts _ _ hnd (fun i hi => ⟨by simp, hlt i hi, rfl⟩) hW (fun _ h => by cases h) ⟨rfl, rfl, [], Used.new _, List.Perm.refl _⟩

theorem init_keys_number (hfr : Fresh g) (X : XInput dims g h v pts) {cfg : Cfg XR} (hH : FinHeur dims g pts cfg) :
    ∀ i ∈ pts, Number (key (applyHeur cfg (g.setValue i Arith.zero) i) i) := by
  intro i hi
  have e1 : ((applyHeur cfg (g.setValue i Arith.zero) i).cells i).hValue = heurOf cfg g i :=
    hValue_applyHeur cfg g _ (sameMap_setValue _ _ _) i (fun _ => by rw [hValue_setValue]; exact hfr.hValue i)
  have e2 : (applyHeur cfg (g.setValue i Arith.zero) i).value i = fin 0 := by
    rw [applyHeur_value, Grid.value_setValue, if_pos rfl]; rfl
  unfold key
  rw [e1]
  obtain ⟨r, e⟩ := hH i (X.inside i hi) (.inl hi)
  rw [e]
  show Number (Arith.add ((applyHeur cfg (g.setValue i Arith.zero) i).value i) _)
  rw [e2]
  unfold Number; simp [Arith.add, XR.add]

/-- a simulation of single iterations gives one of runs -/
theorem Rel.run {F : Type} [Arith F] {N : Band F B} {b0 : B} {W : F → Prop} {n : Nat} (hN : RightBand N b0 W n) {cfg : Cfg F} {eik : Eik F}
    {s0 : St F} (step : ∀ m c s, Steps (StepMin cfg) m s0 s → Rel N b0 W n c s → ¬ Done s →
      ∃ s', StepMin cfg s s' ∧ Rel N b0 W n (bStep N cfg eik c) s') :
    ∀ (k : Nat) (c : BSt F B) (m : Nat) (s : St F), Steps (StepMin cfg) m s0 s → Rel N b0 W n c s →
      ∃ m' s', Steps (StepMin cfg) m' s0 s' ∧ Rel N b0 W n (bRun N cfg eik k c) s' ∧ (Done s' ∨ m' = m + k) := by
  intro k
  induction k with
  | zero => intro c m s hs R; exact ⟨m, s, hs, R, .inr rfl⟩
  | succ k ih =>
    intro c m s hs R
    unfold bRun
    split
    · next hd => exact ⟨m, s, hs, R, .inl ((R.done hN).1 hd)⟩
    · next hd =>
      obtain ⟨s', h1, h2⟩ := step m c s hs R (fun h => hd ((R.done hN).2 h))
      obtain ⟨m', s'', a, b, c'⟩ := ih _ (m + 1) s' (.tail hs h1) h2
      refine ⟨m', s'', a, b, ?_⟩
      rcases c' with h | h
      · exact .inl h
      · right; omega

end FMM

/-- `C57_FMM_refines`, and the calls made on the narrow band respect its contract -/
theorem FMM_used (X : XInput dims g h v pts) (hfr : Fresh g) (ha : StartsApart dims g pts) (hnd : pts.Nodup) (cfg : Cfg XR)
    (hd : cfg.dup = false) (hcfg : cfg.heur = .none) (N : Band XR B) (b0 : B) (hN : RightBand N b0 Number dims.prod) (k : Nat) :
    ∃ m s, Steps (StepMin cfg) m (FMM.init cfg g [] pts) s ∧ (bRun N cfg eikS k (bInit N cfg g b0 pts)).g = s.g ∧
      (BDone N (bRun N cfg eikS k (bInit N cfg g b0 pts)) ↔ Done s) ∧ (Done s ∨ m = k) ∧
      ∃ l, Used N b0 Number dims.prod (bRun N cfg eikS k (bInit N cfg g b0 pts)).g (bRun N cfg eikS k (bInit N cfg g b0 pts)).b l := by
  have hH : FinHeur dims g pts cfg := finHeur_none hcfg
  have R0 := Rel.init N b0 Number dims.prod cfg g X.inside hnd (init_keys_number hfr X hH)
  have hstep : ∀ m (c : BSt XR B) s, Steps (StepMin cfg) m (FMM.init cfg g [] pts) s → Rel N b0 Number dims.prod c s → ¬ Done s →
      ∃ s', StepMin cfg s s' ∧ Rel N b0 Number dims.prod (bStep N cfg eikS c) s' := by
    intro m c s hs R hdone
    have FI := XInput.FInv.reach X (ha.nonAdj X) hfr hcfg hs
    have KI : KInv dims g pts cfg s := by
      refine ⟨FI.map, FI.good, ?_, ?_, fun y hy => (FI.ain.nar y hy).1⟩
      · exact Steps.inv (I := fun s => HInv cfg g pts s) (r := StepMin cfg) (fun _ _ h1 h2 => h1.step h2.any) hs (HInv.start cfg hfr pts)
      · intro y hy
        refine ⟨FI.ain.heapN y hy, ?_⟩
        have := Steps.inv (I := fun s : St XR => SameMap g s.g ∧ ∀ y ∈ s.heap, y ∈ pts ∨ g.occ y = false) (r := StepMin cfg) ?_ hs ?_
        · exact this.2 y hy
        · rintro s t ⟨h0, h1⟩ ⟨_, x, hx, rfl⟩
          refine expand_inv (I := fun s : St XR => SameMap g s.g ∧ ∀ y ∈ s.heap, y ∈ pts ∨ g.occ y = false) cfg eikS s x (fun t b h => h) ?_ ?_
          · exact ⟨h0.trans (popped_sameMap s x), fun y hy => h1 y (List.mem_of_mem_erase hy)⟩
          · intro t j _ h
            refine ⟨h.1.trans (relax_sameMap cfg eikS t j), ?_⟩
            intro y hy
            rcases relax_heap_mem hy with h2 | ⟨rfl, ho⟩
            · exact h.2 y h2
            · exact .inr (by rw [← SameMap.occ_eq h.1]; exact ho)
        · refine ⟨init_sameMap _ _ _ _, fun y hy => .inl ?_⟩
          rw [init_heap] at hy; simpa using hy
    have hsh : s.g.shape = Shape.mk' dims := FI.map.shape.trans X.shape
    have st := R.step hN hd (eik := eikS) hdone (KI.number hH)
      (M := fun l s => KInv dims g pts cfg s ∧ l.Nodup ∧ ∃ θ x, X.FMid θ x l s ∧ ∀ j ∈ l, j ∈ (Shape.mk' dims).nbrs x) ?_ ?_
    · exact ⟨_, ⟨hdone, _, st.1, rfl⟩, st.2⟩
    · rintro j rest t ⟨K, hn, θ, x, m, hl⟩
      rw [List.nodup_cons] at hn
      have hjx := hl j (by simp)
      have hjN : j < dims.prod := FMM.nbr_lt X.fits (m.mid.fzN x m.mid.fx) hjx
      refine ⟨K.safe X hH hjN ?_, K.relax X hjN, hn.2, θ, x, m.relax X (ha.nonAdj X) hcfg hjx hn.1, fun k hk => hl k (by simp [hk])⟩
      intro h1 h2 h3
      have hnp := m.mid.not_init X (ha.nonAdj X) hjx (by rw [← SameMap.occ_eq m.map]; exact h2) (by rw [h1]; simp)
      rcases m.mid.heapK j h3 with h4 | h4 | h4
      · rw [h1] at h4; cases h4
      · rw [h1] at h4; cases h4
      · exact hnp h4
    · intro x hx
      have hmin' : ∀ y ∈ s.heap, tv s.g x ≤ tv s.g y := by
        intro y hy
        have := hx.2 y hy
        rw [total_eq FI.good FI.hz, total_eq FI.good FI.hz] at this
        by_contra hlt
        have := (lt_ofT (tv s.g y) (tv s.g x)).2 (not_le.1 hlt)
        simp_all
      obtain ⟨θ, mm⟩ := FI.ain.pop X hx.1 (Or.inr hmin')
      rw [hsh]
      refine ⟨KI.popped hx.1, nbrs_nodup X.fits (FI.ain.heapN x hx.1), θ, x, ⟨FI.map.trans (popped_sameMap s x), ?_, XInput.hz_setState FI.hz _ _, ?_⟩,
        fun _ h => h⟩
      · intro k; simp only [FMM.popped, Grid.value_setState]; exact FI.good k
      · have e1 : tv (FMM.popped s x).g = tv s.g := by funext k; unfold tv; simp [FMM.popped]
        have e2 : (FMM.popped s x).g.state = fun k => if k = x then .frozen else s.g.state k := by
          funext k; simp [FMM.popped, Grid.state_setState]
        rw [e1, e2]
        exact mm
  obtain ⟨m, s, a, b, c⟩ := Rel.run hN hstep k _ 0 _ (.refl _) R0
  exact ⟨m, s, a, b.1, b.done hN, (by simpa using c), b.2.2.imp fun _ h => h.1⟩

/-- **C57** (FMM without heuristic): whatever narrow band meets its contract, the state of the loop after any number of iterations is a state of the loop whose narrow band is
a bag that returns one of its smallest elements; the run is as long. -/
theorem C57_FMM_refines (X : XInput dims g h v pts) (hfr : Fresh g) (ha : StartsApart dims g pts) (hnd : pts.Nodup) (cfg : Cfg XR)
    (hd : cfg.dup = false) (hcfg : cfg.heur = .none) (N : Band XR B) (b0 : B) (hN : RightBand N b0 Number dims.prod) (k : Nat) :
    ∃ m s, Steps (StepMin cfg) m (FMM.init cfg g [] pts) s ∧ (bRun N cfg eikS k (bInit N cfg g b0 pts)).g = s.g ∧
      (BDone N (bRun N cfg eikS k (bInit N cfg g b0 pts)) ↔ Done s) ∧ (Done s ∨ m = k) := by
  obtain ⟨m, s, a, b, c, d, _⟩ := FMM_used X hfr ha hnd cfg hd hcfg N b0 hN k
  exact ⟨m, s, a, b, c, d⟩

end FMV
