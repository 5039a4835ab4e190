import Verif.Lemmas.FMMBasic
import Verif.Props.Geometry
/-!
# Structural properties of FMM, SFMM and their starred versions

C11 (obstacles), C12 (frozen is final), C13 (termination), C14 (reachability), C19 (goal stop), C20 (map unchanged).
Everything here holds for an arbitrary `[Arith F]` (any floating-point semantics) and for any element popped from the
narrow band (`StepAny`), unless said otherwise.
-/
set_option linter.unusedSectionVars false
set_option linter.unusedVariables false
namespace FMV
open Spec Arith Shape
variable {F : Type} [Arith F]
namespace FMM

/-- Valid input of a solver: a grid the library can index, with valid initial points. -/
structure _root_.FMV.Input (dims : List Nat) (g : Grid F) (pts : List Nat) : Prop where
  fits : Fits dims (2^31+1)
  shape : g.shape = Shape.mk' dims
  inside : ∀ i ∈ pts, i < dims.prod

theorem nbr_lt {dims : List Nat} (h : Fits dims (2^31+1)) {i j : Nat} (hi : i < dims.prod)
    (hj : j ∈ (Shape.mk' dims).nbrs i) : j < dims.prod := by
  obtain ⟨k, hk, hj⟩ := mem_nbrs.1 hj
  exact nbrsDim_lt h hi hk hj

/-- every element of the narrow band is a cell of the grid -/
theorem heap_lt {cfg : Cfg F} {dims : List Nat} {g : Grid F} {pts : List Nat} (hin : Input dims g pts) {n : Nat} {s : St F}
    (hs : Steps (StepAny cfg) n (init cfg g [] pts) s) :
    s.g.shape = Shape.mk' dims ∧ ∀ x ∈ s.heap, x < dims.prod := by
  refine Steps.inv (I := fun s : St F => s.g.shape = Shape.mk' dims ∧ ∀ x ∈ s.heap, x < dims.prod) ?_ hs ?_
  · rintro s t ⟨h1, h2⟩ ⟨_, eik, x, hx, rfl⟩
    refine ⟨by rw [(expand_sameMap cfg eik s x).shape, h1], ?_⟩
    apply expand_inv (I := fun t : St F => ∀ y ∈ t.heap, y < dims.prod) cfg eik s x (fun _ _ h => h)
    · intro y hy; exact h2 y (List.mem_of_mem_erase hy)
    · intro t j hj ht y hy
      rw [h1] at hj
      rcases relax_heap_mem hy with hy | ⟨rfl, _⟩
      · exact ht y hy
      · exact nbr_lt hin.fits (h2 x hx) hj
  · refine ⟨by rw [(init_sameMap cfg g [] pts).shape, hin.shape], ?_⟩
    rw [init_heap]; simpa using hin.inside

/-! ## C20 -/

/-- **C20** for FMM/SFMM/FMM*/SFMM*: the map is never modified. -/
theorem _root_.FMV.C20_FMM (cfg : Cfg F) (g : Grid F) (heap0 pts : List Nat) (n : Nat) (s : St F)
    (hs : Steps (StepAny cfg) n (init cfg g heap0 pts) s) : SameMap g s.g := by
  refine Steps.inv (I := fun s : St F => SameMap g s.g) ?_ hs (init_sameMap _ _ _ _)
  rintro s t h ⟨_, eik, x, _, rfl⟩
  exact h.trans (expand_sameMap cfg eik s x)

/-! ## C11 -/

/-- **C11** for FMM/SFMM/FMM*/SFMM*: at no moment is the arrival time of an occupied cell that is not an initial point changed. -/
theorem _root_.FMV.C11_FMM (cfg : Cfg F) (g : Grid F) (heap0 pts : List Nat) (n : Nat) (s : St F)
    (hs : Steps (StepAny cfg) n (init cfg g heap0 pts) s) (i : Nat) (hocc : g.occ i = true) (hni : i ∉ pts) :
    s.g.value i = g.value i := by
  have := Steps.inv (I := fun s : St F => s.g.value i = g.value i ∧ s.g.occ i = true) (r := StepAny cfg) ?_ hs ?_
  · exact this.1
  · rintro s t h ⟨_, eik, x, _, rfl⟩
    exact ⟨by rw [expand_occ_value h.2]; exact h.1, by rw [SameMap.occ_eq (expand_sameMap cfg eik s x)]; exact h.2⟩
  · rw [init_value, if_neg hni]
    exact ⟨rfl, by rw [SameMap.occ_eq (init_sameMap cfg g heap0 pts)]; exact hocc⟩

/-! ## C12 -/

/-- **C12**: once FROZEN, a cell is never changed again (neither value, state, heuristic nor anything else) in any continuation
of the run. -/
theorem _root_.FMV.C12_frozen_final (cfg : Cfg F) (s t : St F) (n : Nat) (hs : Steps (StepAny cfg) n s t) (i : Nat)
    (hi : s.g.state i = .frozen) : t.g.cells i = s.g.cells i := by
  have := Steps.inv (I := fun t : St F => t.g.cells i = s.g.cells i) (r := StepAny cfg) ?_ hs rfl
  · exact this
  · rintro u t h ⟨_, eik, x, _, rfl⟩
    rw [expand_frozen (by unfold Grid.state; rw [h]; exact hi), h]

/-- The popped cell is FROZEN after the iteration, and it is the only one whose state becomes FROZEN. -/
theorem _root_.FMV.C12_freezes_popped (cfg : Cfg F) (eik : Eik F) (s : St F) (x k : Nat) :
    (expand cfg eik s x).g.state k = .frozen ↔ s.g.state k = .frozen ∨ k = x := expand_frozen_iff

/-! ## C13 -/

/-- number of OPEN cells -/
def openCount (N : Nat) (g : Grid F) : Nat := ((Finset.range N).filter (fun i => g.state i = .opn)).card

theorem openCount_mono {N : Nat} {g g' : Grid F} (h : ∀ i, i < N → g'.state i = .opn → g.state i = .opn) :
    openCount N g' ≤ openCount N g := by
  apply Finset.card_le_card
  intro i hi
  rw [Finset.mem_filter, Finset.mem_range] at *
  exact ⟨hi.1, h i hi.1 hi.2⟩

theorem openCount_lt {N : Nat} {g g' : Grid F} (h : ∀ i, i < N → g'.state i = .opn → g.state i = .opn) {j : Nat} (hj : j < N)
    (h1 : g.state j = .opn) (h2 : g'.state j ≠ .opn) : openCount N g' + 1 ≤ openCount N g := by
  apply Nat.succ_le_of_lt
  apply Finset.card_lt_card
  rw [Finset.ssubset_iff_of_subset]
  · refine ⟨j, by simp [hj, h1], by simp [h2]⟩
  · intro i hi
    rw [Finset.mem_filter, Finset.mem_range] at *
    exact ⟨hi.1, h i hi.1 hi.2⟩

theorem openCount_le (N : Nat) (g : Grid F) : openCount N g ≤ N := by
  unfold openCount
  exact le_trans (Finset.card_filter_le _ _) (by simp)

theorem relax_measure {cfg : Cfg F} (hd : cfg.dup = false) {eik : Eik F} {s : St F} {N j : Nat} (hj : j < N) :
    (relax cfg eik s j).heap.length + openCount N (relax cfg eik s j).g ≤ s.heap.length + openCount N s.g := by
  have hst := relax_state cfg eik s j
  have hmono : ∀ i, i < N → (relax cfg eik s j).g.state i = .opn → s.g.state i = .opn := by
    intro i _ h
    rw [hst] at h
    split at h
    · cases h
    · exact h
  rcases relax_cases cfg eik s j with ⟨_, e⟩ | ⟨ho, hn, _, e⟩ | ⟨ho, hn, _, e⟩ | ⟨ho, hn, e⟩
  · rw [e]
  · have hl : (relax cfg eik s j).heap = s.heap := by rw [e]; simp [hd]
    rw [hl]
    exact Nat.add_le_add_left (openCount_mono hmono) _
  · have hl : (relax cfg eik s j).heap = s.heap := by rw [e]
    rw [hl]
    exact Nat.add_le_add_left (openCount_mono hmono) _
  · have hl : (relax cfg eik s j).heap.length = s.heap.length + 1 := by rw [e]; simp
    have := openCount_lt hmono hj hn (by rw [hst, if_pos ⟨rfl, hn, ho⟩]; simp)
    rw [hl]; omega

theorem expand_measure {cfg : Cfg F} (hd : cfg.dup = false) {eik : Eik F} {s : St F} {N x : Nat}
    (hx : x ∈ s.heap) (hN : ∀ j ∈ s.g.shape.nbrs x, j < N) :
    (expand cfg eik s x).heap.length + openCount N (expand cfg eik s x).g + 1 ≤ s.heap.length + openCount N s.g := by
  have h0 : (popped s x).heap.length + openCount N (popped s x).g + 1 ≤ s.heap.length + openCount N s.g := by
    have h1 : (popped s x).heap.length + 1 = s.heap.length := by
      simp only [popped]
      rw [List.length_erase_of_mem hx]
      have := List.length_pos_of_mem hx
      omega
    have h2 : openCount N (popped s x).g ≤ openCount N s.g := by
      apply openCount_mono
      intro i _ h
      simp only [popped, Grid.state_setState] at h
      split at h
      · cases h
      · exact h
    omega
  apply expand_inv (I := fun t : St F => t.heap.length + openCount N t.g + 1 ≤ s.heap.length + openCount N s.g)
    cfg eik s x (fun _ _ h => h) h0
  intro t j hj ht
  have := relax_measure (cfg := cfg) hd (eik := eik) (s := t) (hN j hj)
  omega

/-- **C13** (bound): FMM with a D-ary or Fibonacci heap pops at most (cells + initial points) elements, for every pop order,
velocity map (including NaN, zero, negative) and floating-point semantics. -/
theorem _root_.FMV.C13_FMM_linear (cfg : Cfg F) (hd : cfg.dup = false) (dims : List Nat) (g : Grid F) (pts : List Nat)
    (hin : Input dims g pts) (n : Nat) (s : St F) (hs : Steps (StepAny cfg) n (init cfg g [] pts) s) :
    n ≤ dims.prod + pts.length := by
  have key : n + (s.heap.length + openCount dims.prod s.g) ≤
      (init cfg g [] pts).heap.length + openCount dims.prod (init cfg g [] pts).g := by
    generalize hi : init cfg g [] pts = s0 at hs
    induction hs with
    | refl => omega
    | tail h1 h2 ih =>
      have hl := heap_lt (cfg := cfg) hin (by rw [hi]; exact h1)
      obtain ⟨_, eik, x, hx, rfl⟩ := h2
      have := expand_measure hd (eik := eik) hx (N := dims.prod)
        (fun j hj => nbr_lt hin.fits (hl.2 x hx) (by rw [← hl.1]; exact hj))
      have := ih hi
      omega
  rw [init_heap] at key
  have := openCount_le dims.prod (init cfg g [] pts).g
  simp at key
  omega

theorem exists_min (L : LtLaws F) (f : Nat → F) : ∀ l : List Nat, l ≠ [] → ∃ x ∈ l, ∀ y ∈ l, lt (f y) (f x) = false := by
  intro l
  induction l with
  | nil => intro h; exact absurd rfl h
  | cons a l ih =>
    intro _
    by_cases hl : l = []
    · subst hl; exact ⟨a, by simp, by intro y hy; simp at hy; subst hy; exact L.irrefl _⟩
    · obtain ⟨x, hx, hmin⟩ := ih hl
      by_cases h : lt (f a) (f x) = true
      · refine ⟨a, by simp, ?_⟩
        intro y hy
        rcases List.mem_cons.1 hy with rfl | hy
        · exact L.irrefl _
        · by_contra hc
          have := L.trans _ _ _ (by simpa using hc) h
          rw [hmin y hy] at this; cases this
      · refine ⟨x, by simp [hx], ?_⟩
        intro y hy
        rcases List.mem_cons.1 hy with rfl | hy
        · simpa using h
        · exact hmin y hy

/-- A run that has not finished can always go on: the heap has a minimal element. -/
theorem progress (L : LtLaws F) (cfg : Cfg F) (s : St F) (h : ¬ Done s) : ∃ s', StepMin cfg s s' := by
  have hne : s.heap ≠ [] := fun h0 => h (Or.inr h0)
  obtain ⟨x, hx, hmin⟩ := exists_min L (fun y => (s.g.cells y).total) s.heap hne
  exact ⟨_, h, x, ⟨hx, hmin⟩, rfl⟩

/-- bounded runs and progress give a finished run -/
theorem exists_done {S : Type} {step : S → S → Prop} {done : S → Prop} {s0 : S} (B : Nat)
    (hb : ∀ n s, Steps step n s0 s → n ≤ B) (hp : ∀ s, ¬ done s → ∃ s', step s s') :
    ∃ n s, n ≤ B ∧ Steps step n s0 s ∧ done s := by
  by_contra hcon
  push Not at hcon
  have : ∀ n, ∃ s, Steps step n s0 s := by
    intro n
    induction n with
    | zero => exact ⟨s0, .refl _⟩
    | succ n ih =>
      obtain ⟨s, hs⟩ := ih
      obtain ⟨s', hs'⟩ := hp s (hcon n s (hb n s hs) hs)
      exact ⟨s', .tail hs hs'⟩
  obtain ⟨s, hs⟩ := this (B + 1)
  have := hb _ _ hs
  omega

/-- **C13** (termination): `compute` of FMM reaches the end of its main loop after at most (cells + initial points) iterations. -/
theorem _root_.FMV.C13_FMM_terminates (L : LtLaws F) (cfg : Cfg F) (hd : cfg.dup = false) (dims : List Nat) (g : Grid F)
    (pts : List Nat) (hin : Input dims g pts) :
    ∃ n s, n ≤ dims.prod + pts.length ∧ Steps (StepMin cfg) n (init cfg g [] pts) s ∧ Done s :=
  exists_done _ (fun n s hs => C13_FMM_linear cfg hd dims g pts hin n s (hs.mono (fun _ _ => StepMin.any)))
    (progress L cfg)

/-! ## C14 -/

/-- the cells given as initial points, or connected to one through free cells -/
def reach (dims : List Nat) (g : Grid F) (pts : List Nat) (i : Nat) : Prop :=
  Reachable dims (Shape.mk' dims).idx2coord (fun j => g.occ j = false) (fun j => j ∈ pts) i

theorem axisAdjacent_iff {dims : List Nat} (h : Fits dims (2^31+1)) {i j : Nat} (hi : i < dims.prod) :
    j ∈ (Shape.mk' dims).nbrs i ↔
      j < dims.prod ∧ AxisAdjacent ((Shape.mk' dims).idx2coord i) ((Shape.mk' dims).idx2coord j) := by
  rw [mem_nbrs]
  constructor
  · rintro ⟨k, hk, hj⟩
    have := (adjacentIn_iff dims h hi hk).1 hj
    exact ⟨this.1, k, this.2⟩
  · rintro ⟨hj, k, hk⟩
    have hk' : k < dims.length := by
      have h1 := hk.2.1
      rwa [idx2coord_eq (h.mono (by norm_num)) hi, List.length_map, List.length_range] at h1
    exact ⟨k, hk', (adjacentIn_iff dims h hi hk').2 ⟨hj, hk⟩⟩

/-- The invariant behind C14. -/
structure ReachInv (dims : List Nat) (g : Grid F) (pts : List Nat) (s : St F) : Prop where
  map : SameMap g s.g
  sound_heap : ∀ i ∈ s.heap, reach dims g pts i
  sound_frozen : ∀ i, s.g.state i = .frozen → reach dims g pts i
  start : ∀ i ∈ pts, s.g.state i = .frozen ∨ i ∈ s.heap
  narrow : ∀ i, s.g.state i = .narrow → i ∈ s.heap
  closed : ∀ i, s.g.state i = .frozen → ∀ j ∈ (Shape.mk' dims).nbrs i, g.occ j = false →
    s.g.state j = .frozen ∨ s.g.state j = .narrow

theorem reach_lt {dims : List Nat} {g : Grid F} {pts : List Nat} {i : Nat} (h : reach dims g pts i) : i < dims.prod := by
  cases h with
  | start _ h => exact h
  | move _ h _ _ => exact h

theorem reachInv_init {cfg : Cfg F} {dims : List Nat} {g : Grid F} {pts : List Nat} (hin : Input dims g pts)
    (hopen : ∀ i, g.state i = .opn) : ReachInv dims g pts (init cfg g [] pts) := by
  have hst : ∀ i, (init cfg g [] pts).g.state i = .opn := fun i => by rw [init_state]; exact hopen i
  refine ⟨init_sameMap _ _ _ _, ?_, ?_, ?_, ?_, ?_⟩
  · intro i hi
    rw [init_heap] at hi
    have : i ∈ pts := by simpa using hi
    exact .start this (hin.inside i this)
  · intro i hi; rw [hst] at hi; cases hi
  · intro i hi; right; rw [init_heap]; simpa using hi
  · intro i hi; rw [hst] at hi; cases hi
  · intro i hi; rw [hst] at hi; cases hi

/-- the part of the invariant that holds between two neighbour updates -/
structure MidInv (dims : List Nat) (g : Grid F) (pts : List Nat) (x : Nat) (done : List Nat) (s : St F) : Prop where
  map : SameMap g s.g
  sound_heap : ∀ i ∈ s.heap, reach dims g pts i
  sound_frozen : ∀ i, s.g.state i = .frozen → reach dims g pts i
  start : ∀ i ∈ pts, s.g.state i = .frozen ∨ i ∈ s.heap
  narrow : ∀ i, s.g.state i = .narrow → i ∈ s.heap
  closed : ∀ i, s.g.state i = .frozen → i ≠ x → ∀ j ∈ (Shape.mk' dims).nbrs i, g.occ j = false →
    s.g.state j = .frozen ∨ s.g.state j = .narrow
  closedx : ∀ j ∈ done, g.occ j = false → s.g.state j = .frozen ∨ s.g.state j = .narrow

theorem relax_mid {cfg : Cfg F} {eik : Eik F} {dims : List Nat} {g : Grid F} {pts : List Nat} {x j : Nat} {done : List Nat} {s : St F}
    (hr : reach dims g pts x) (hf : Fits dims (2^31+1)) (hj : j ∈ (Shape.mk' dims).nbrs x)
    (h : MidInv dims g pts x done s) : MidInv dims g pts x (done ++ [j]) (relax cfg eik s j) := by
  have hst := relax_state cfg eik s j
  have hocc : s.g.occ j = g.occ j := SameMap.occ_eq h.map j
  have keep : ∀ k, (s.g.state k = .frozen ∨ s.g.state k = .narrow) →
      ((relax cfg eik s j).g.state k = .frozen ∨ (relax cfg eik s j).g.state k = .narrow) := by
    intro k hk
    rw [hst]; split
    · right; rfl
    · exact hk
  have frz : ∀ k, (relax cfg eik s j).g.state k = .frozen ↔ s.g.state k = .frozen := by
    intro k
    rw [hst]; split
    · next hh => rw [hh.1, hh.2.1]; simp
    · rfl
  refine ⟨h.map.trans (relax_sameMap _ _ _ _), ?_, ?_, ?_, ?_, ?_, ?_⟩
  · intro i hi
    rcases relax_heap_mem hi with hi | ⟨rfl, ho⟩
    · exact h.sound_heap i hi
    · have := (axisAdjacent_iff hf (reach_lt hr)).1 hj
      exact .move hr this.1 (by rw [← hocc]; exact ho) this.2
  · intro i hi; exact h.sound_frozen i ((frz i).1 hi)
  · intro i hi
    rcases h.start i hi with h1 | h1
    · exact Or.inl ((frz i).2 h1)
    · exact Or.inr (relax_heap_sub h1)
  · intro i hi
    rw [hst] at hi
    split at hi
    · next hh =>
      obtain ⟨rfl, h1, h2⟩ := hh
      rcases relax_cases cfg eik s i with ⟨h', _⟩ | ⟨_, hn, _, _⟩ | ⟨_, hn, _, _⟩ | ⟨_, _, e⟩
      · rcases h' with h' | h'
        · rw [h1] at h'; cases h'
        · rw [h2] at h'; cases h'
      · rw [h1] at hn; cases hn
      · rw [h1] at hn; cases hn
      · rw [e]; simp
    · exact relax_heap_sub (h.narrow i hi)
  · intro i hi hix k hk ho
    exact keep k (h.closed i ((frz i).1 hi) hix k hk ho)
  · intro k hk ho
    rw [List.mem_append, List.mem_singleton] at hk
    rcases hk with hk | rfl
    · exact keep k (h.closedx k hk ho)
    · rw [hst]
      by_cases hop : s.g.state k = .opn
      · rw [if_pos ⟨rfl, hop, by rw [hocc]; exact ho⟩]; right; rfl
      · rw [if_neg (fun hh => hop hh.2.1)]
        cases hs : s.g.state k
        · exact absurd hs hop
        · right; rfl
        · left; rfl

theorem fold_mid {cfg : Cfg F} {eik : Eik F} {dims : List Nat} {g : Grid F} {pts : List Nat} {x : Nat}
    (hr : reach dims g pts x) (hf : Fits dims (2^31+1)) : ∀ (l done : List Nat) (s : St F),
    (∀ j ∈ l, j ∈ (Shape.mk' dims).nbrs x) → MidInv dims g pts x done s →
    MidInv dims g pts x (done ++ l) (l.foldl (relax cfg eik) s) := by
  intro l
  induction l with
  | nil => intro done s _ h; simpa using h
  | cons j l ih =>
    intro done s hl h
    rw [List.foldl_cons]
    have := ih (done ++ [j]) _ (fun k hk => hl k (by simp [hk])) (relax_mid (cfg := cfg) (eik := eik) hr hf (hl j (by simp)) h)
    simpa using this

theorem reachInv_step {cfg : Cfg F} {dims : List Nat} {g : Grid F} {pts : List Nat} (hin : Input dims g pts) {s t : St F}
    (h : ReachInv dims g pts s) (hst : StepAny cfg s t) : ReachInv dims g pts t := by
  obtain ⟨_, eik, x, hx, rfl⟩ := hst
  have hr := h.sound_heap x hx
  have hpop : MidInv dims g pts x [] (popped s x) := by
    have e : ∀ k, (popped s x).g.state k = if k = x then .frozen else s.g.state k := by
      intro k; simp [popped, Grid.state_setState]
    have her : ∀ k, k ≠ x → k ∈ s.heap → k ∈ (popped s x).heap := by
      intro k hk hks; exact (List.mem_erase_of_ne hk).2 hks
    refine ⟨h.map.trans (popped_sameMap s x), ?_, ?_, ?_, ?_, ?_, ?_⟩
    · intro i hi; exact h.sound_heap i (List.mem_of_mem_erase hi)
    · intro i hi
      rw [e] at hi
      split at hi
      · next hh => rw [hh]; exact hr
      · exact h.sound_frozen i hi
    · intro i hi
      rw [e]
      by_cases hix : i = x
      · left; rw [if_pos hix]
      · rw [if_neg hix]
        rcases h.start i hi with h1 | h1
        · exact Or.inl h1
        · exact Or.inr (her i hix h1)
    · intro i hi
      rw [e] at hi
      split at hi
      · cases hi
      · next hix => exact her i hix (h.narrow i hi)
    · intro i hi hix k hk ho
      rw [e, if_neg hix] at hi
      rw [e]
      split
      · left; rfl
      · exact h.closed i hi k hk ho
    · intro j hj; simp at hj
  have hs : s.g.shape = Shape.mk' dims := h.map.shape.trans hin.shape
  have := fold_mid (cfg := cfg) (eik := eik) hr hin.fits (s.g.shape.nbrs x) [] (popped s x) (by rw [hs]; exact fun _ h => h) hpop
  rw [List.nil_append, hs] at this
  have e1 : (expand cfg eik s x).g = ((Shape.mk' dims).nbrs x |>.foldl (relax cfg eik) (popped s x)).g := by
    rw [expand_g, hs]
  have e2 : (expand cfg eik s x).heap = ((Shape.mk' dims).nbrs x |>.foldl (relax cfg eik) (popped s x)).heap := by
    rw [expand_heap, hs]
  refine ⟨by rw [e1]; exact this.map, by rw [e2]; exact this.sound_heap, by rw [e1]; exact this.sound_frozen,
    by rw [e1, e2]; exact this.start, by rw [e1, e2]; exact this.narrow, ?_⟩
  rw [e1]
  intro i hi j hj ho
  by_cases hix : i = x
  · subst hix; exact this.closedx j hj ho
  · exact this.closed i hi hix j hj ho

/-- **C14** (soundness, at every moment): only initial points and cells connected to one through free cells are ever frozen. -/
theorem _root_.FMV.C14_only_reachable (cfg : Cfg F) (dims : List Nat) (g : Grid F) (pts : List Nat) (hin : Input dims g pts)
    (hopen : ∀ i, g.state i = .opn) (n : Nat) (s : St F) (hs : Steps (StepAny cfg) n (init cfg g [] pts) s) (i : Nat)
    (hi : s.g.state i = .frozen) : reach dims g pts i :=
  (Steps.inv (fun _ _ h hst => reachInv_step hin h hst) hs (reachInv_init hin hopen)).sound_frozen i hi

/-- **C14**: when FMM (or SFMM) runs out of narrow band (always the case when it ends without a goal), the FROZEN cells are exactly
the initial points and the free cells connected to one of them through free cells by axis moves. -/
theorem _root_.FMV.C14_frozen_iff_reachable (cfg : Cfg F) (dims : List Nat) (g : Grid F) (pts : List Nat) (hin : Input dims g pts)
    (hopen : ∀ i, g.state i = .opn) (n : Nat) (s : St F) (hs : Steps (StepAny cfg) n (init cfg g [] pts) s)
    (hend : s.heap = []) (i : Nat) : s.g.state i = .frozen ↔ reach dims g pts i := by
  have inv := Steps.inv (fun _ _ h hst => reachInv_step hin h hst) hs (reachInv_init (cfg := cfg) hin hopen)
  refine ⟨inv.sound_frozen i, ?_⟩
  intro hr
  induction hr with
  | start h1 h2 =>
    rcases inv.start _ h1 with h | h
    · exact h
    · rw [hend] at h; cases h
  | move h1 h2 h3 h4 ih =>
    rcases inv.closed _ ih _ ((axisAdjacent_iff hin.fits (reach_lt h1)).2 ⟨h2, h4⟩) h3 with h | h
    · exact h
    · have := inv.narrow _ h
      rw [hend] at this; cases this

/-- without a goal inside the grid the stop flag is never set -/
theorem stop_no_goal {cfg : Cfg F} {dims : List Nat} {g : Grid F} {pts : List Nat} (hin : Input dims g pts)
    (hgoal : dims.prod ≤ cfg.goal) {n : Nat} {s : St F} (hs : Steps (StepAny cfg) n (init cfg g [] pts) s) : s.stop = false := by
  generalize hi : init cfg g [] pts = s0 at hs
  induction hs with
  | refl => rw [← hi, init_stop]
  | tail h1 h2 ih =>
    have hl := heap_lt (cfg := cfg) hin (by rw [hi]; exact h1)
    obtain ⟨_, eik, x, hx, rfl⟩ := h2
    rw [expand_eq]
    dsimp only
    rw [if_neg (by have := hl.2 x hx; omega)]
    exact ih hi

/-- Without a goal (index outside the grid, e.g. the library's `-1`) a finished run has an empty narrow band. -/
theorem _root_.FMV.C14_no_goal_ends_empty (cfg : Cfg F) (dims : List Nat) (g : Grid F) (pts : List Nat) (hin : Input dims g pts)
    (hgoal : dims.prod ≤ cfg.goal) (n : Nat) (s : St F) (hs : Steps (StepAny cfg) n (init cfg g [] pts) s)
    (hdone : Done s) : s.heap = [] := by
  have : s.stop = false := stop_no_goal hin hgoal hs
  rcases hdone with h | h
  · rw [this] at h; cases h
  · exact h

/-! ## C19 -/

theorem run_done_add {pick : Grid F → List Nat → Nat} {cfg : Cfg F} {eik : Eik F} {s : St F} {n : Nat}
    (h : Done (run pick cfg eik n s)) (m : Nat) : run pick cfg eik (n + m) s = run pick cfg eik n s := by
  induction m with
  | zero => rfl
  | succ m ih =>
    show (if Done (run pick cfg eik (n+m) s) then run pick cfg eik (n+m) s else _) = _
    rw [ih, if_pos h]

theorem run_frozen {pick : Grid F → List Nat → Nat} {cfg : Cfg F} {eik : Eik F} {s : St F} {i : Nat} {n : Nat}
    (h : (run pick cfg eik n s).g.state i = .frozen) (m : Nat) :
    (run pick cfg eik (n + m) s).g.cells i = (run pick cfg eik n s).g.cells i := by
  induction m with
  | zero => rfl
  | succ m ih =>
    show (if Done (run pick cfg eik (n+m) s) then run pick cfg eik (n+m) s
      else expand cfg eik (run pick cfg eik (n+m) s) _).g.cells i = _
    split
    · exact ih
    · rw [expand_frozen (by unfold Grid.state at *; rw [ih]; exact h), ih]

theorem expand_goal (cfg : Cfg F) (eik : Eik F) (s : St F) (x g' : Nat) :
    expand { cfg with goal := g' } eik s x = { expand cfg eik s x with stop := if x = g' then true else s.stop } := by
  rw [expand_eq, expand_eq]
  rfl

/-- **C19**: let the goal-directed run and the run without goal make the same choices (`pick`, any tie-breaking) with the same local solver
(any arithmetic).  When both have finished, every cell frozen by the goal-directed run has exactly the same content in the other;
and the goal is one of them, unless the goal-directed run exhausted its narrow band, in which case the two runs are identical. -/
theorem _root_.FMV.C19_goal_stop (pick : Grid F → List Nat → Nat) (hpick : ∀ g l, l ≠ [] → pick g l ∈ l) (cfg : Cfg F) (eik : Eik F)
    (dims : List Nat) (g : Grid F) (pts : List Nat) (hin : Input dims g pts) (n m : Nat)
    (hn : Done (run pick cfg eik n (init cfg g [] pts)))
    (hm : Done (run pick { cfg with goal := noGoal } eik m (init { cfg with goal := noGoal } g [] pts))) :
    let sG := run pick cfg eik n (init cfg g [] pts)
    let sN := run pick { cfg with goal := noGoal } eik m (init { cfg with goal := noGoal } g [] pts)
    (∀ i, sG.g.state i = .frozen → sN.g.cells i = sG.g.cells i) ∧
    (sG.g.state cfg.goal = .frozen ∨ sG = sN) := by
  intro sG sN
  let cN : Cfg F := { cfg with goal := noGoal }
  have hinit : init cN g [] pts = init cfg g [] pts := rfl
  set s0 := init cfg g [] pts with hs0
  have hNN : dims.prod < noGoal := by have := hin.fits.lt; unfold noGoal; omega
  -- the run without goal never sets the stop flag
  have steps : ∀ k, ∃ k', Steps (StepAny cN) k' s0 (run pick cN eik k s0) := by
    intro k
    induction k with
    | zero => exact ⟨0, .refl _⟩
    | succ k ih =>
      obtain ⟨k', ih⟩ := ih
      show ∃ k'', Steps (StepAny cN) k'' s0 (if Done (run pick cN eik k s0) then run pick cN eik k s0
        else expand cN eik (run pick cN eik k s0) _)
      split
      · exact ⟨k', ih⟩
      · next hd =>
        refine ⟨k' + 1, .tail ih ⟨hd, eik, _, hpick _ _ (fun h => hd (Or.inr h)), rfl⟩⟩
  have hlt : ∀ k, ∀ x ∈ (run pick cN eik k s0).heap, x < dims.prod := by
    intro k
    obtain ⟨k', hk'⟩ := steps k
    exact (heap_lt (cfg := cN) hin hk').2
  have nostop : ∀ k, (run pick cN eik k s0).stop = false := by
    intro k
    induction k with
    | zero => exact init_stop _ _ _ _
    | succ k ih =>
      show (if Done (run pick cN eik k s0) then run pick cN eik k s0
        else expand cN eik (run pick cN eik k s0) _).stop = false
      split
      · exact ih
      · next hd =>
        rw [expand_eq]
        dsimp only
        rw [if_neg, ih]
        intro h
        have := hlt k _ (hpick (run pick cN eik k s0).g (run pick cN eik k s0).heap (fun h => hd (Or.inr h)))
        rw [h] at this
        have e : cN.goal = noGoal := rfl
        omega
  -- relation between the two runs
  have rel : ∀ n, run pick cfg eik n s0 = run pick cN eik n s0 ∨
      ∃ k, run pick cfg eik n s0 = { run pick cN eik k s0 with stop := true } ∧
        (run pick cN eik k s0).g.state cfg.goal = .frozen := by
    intro n
    induction n with
    | zero => left; rfl
    | succ n ih =>
      rcases ih with ih | ⟨k, ih, hf⟩
      · by_cases hd : Done (run pick cN eik n s0)
        · left
          show (if Done (run pick cfg eik n s0) then run pick cfg eik n s0 else _) =
            (if Done (run pick cN eik n s0) then run pick cN eik n s0 else _)
          rw [ih, if_pos hd, if_pos hd]
        · have e1 : run pick cfg eik (n+1) s0 = expand cfg eik (run pick cN eik n s0) (pick (run pick cN eik n s0).g (run pick cN eik n s0).heap) := by
            show (if Done (run pick cfg eik n s0) then run pick cfg eik n s0 else _) = _
            rw [ih, if_neg hd]
          have e2 : run pick cN eik (n+1) s0 = expand cN eik (run pick cN eik n s0) (pick (run pick cN eik n s0).g (run pick cN eik n s0).heap) := by
            show (if Done (run pick cN eik n s0) then run pick cN eik n s0 else _) = _
            rw [if_neg hd]
          have hst := nostop (n+1)
          rw [e1]
          by_cases hg : pick (run pick cN eik n s0).g (run pick cN eik n s0).heap = cfg.goal
          · right
            refine ⟨n+1, ?_, ?_⟩
            · rw [e2, expand_goal cfg eik _ _ noGoal]
              rw [expand_eq, if_pos hg]
            · rw [e2, ← hg]; exact expand_x_frozen
          · left
            rw [e2, expand_goal cfg eik _ _ noGoal]
            rw [e2, expand_goal cfg eik _ _ noGoal] at hst
            have hst' : (if pick (run pick cN eik n s0).g (run pick cN eik n s0).heap = noGoal then true else (run pick cN eik n s0).stop) = false := hst
            rw [hst']
            rw [expand_eq, if_neg hg, nostop n]
      · right
        refine ⟨k, ?_, hf⟩
        have hd : Done (run pick cfg eik n s0) := by rw [ih]; exact Or.inl rfl
        show (if Done (run pick cfg eik n s0) then run pick cfg eik n s0 else _) = _
        rw [if_pos hd]; exact ih
  have fin : ∀ k i, (run pick cN eik k s0).g.state i = .frozen →
      (run pick cN eik m s0).g.cells i = (run pick cN eik k s0).g.cells i := by
    intro k i hi
    rcases le_total k m with h | h
    · obtain ⟨d, rfl⟩ := Nat.exists_eq_add_of_le h
      exact run_frozen hi d
    · obtain ⟨d, rfl⟩ := Nat.exists_eq_add_of_le h
      have hm' : Done (run pick cN eik m s0) := hm
      rw [run_done_add hm' d]
  rcases rel n with h | ⟨k, h, hf⟩
  · have hdN : Done (run pick cN eik n s0) := by rw [← h]; exact hn
    have heq : run pick cN eik n s0 = run pick cN eik m s0 := by
      rcases le_total n m with hle | hle
      · obtain ⟨d, rfl⟩ := Nat.exists_eq_add_of_le hle
        rw [run_done_add hdN d]
      · obtain ⟨d, rfl⟩ := Nat.exists_eq_add_of_le hle
        have hm' : Done (run pick cN eik m s0) := hm
        rw [run_done_add hm' d]
    have : sG = sN := by show run pick cfg eik n s0 = run pick cN eik m s0; rw [h, heq]
    exact ⟨fun i _ => by rw [this], Or.inr this⟩
  · have hg : sG.g = (run pick cN eik k s0).g := by
      show (run pick cfg eik n s0).g = _; rw [h]
    refine ⟨?_, Or.inl ?_⟩
    · intro i hi
      rw [hg] at hi ⊢
      exact fin k i hi
    · rw [hg]; exact hf

/-- non-vacuity: a 3x3 grid with start 0 is a valid input, its cells are OPEN, and its two neighbours are reachable -/
example (j : F) : Input [3,3] (Grid.create [3,3] j (0,0)) [0] ∧ (∀ i, (Grid.create [3,3] j (0,0)).state i = .opn) :=
  ⟨⟨⟨by decide, by decide, by decide⟩, rfl, by decide⟩, fun _ => rfl⟩

end FMM
end FMV
