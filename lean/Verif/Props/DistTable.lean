import Verif.Spec.DistTable
import Verif.Props.Heuristic
/-!
# C88: the table of distances of FMM* and SFMM*
-/
set_option linter.unusedVariables false
namespace FMV
open Spec Shape FMM FMV.DistTable FMV.Spec.DistTable
namespace DistTable

/-- what holds after every history -/
structure Inv (k : Known) (o : Obj) : Prop where
  size : o.size = 0
  shape : ∀ dims, k.dims = some dims → GridOk dims ∧ o.shape = Shape.mk' dims
  filled : ∀ n, k.filled = some n → n ≤ o.cap
  pre : o.pre = k.filled.isSome
  goal : k.goalSet = true → ∃ dims goal, k.dims = some dims ∧ goal < dims.prod ∧ o.goalCoord = (Shape.mk' dims).idx2coord goal

theorem pre_storage (o : Obj) : o.precompute .storage = some { o.reserve o.shape.ncells with pre := true } := by
  unfold Obj.precompute
  have : (List.range (o.reserve o.shape.ncells).shape.ncells).all ((o.reserve o.shape.ncells).access .storage) = true := by
    rw [List.all_eq_true]
    intro i hi
    rw [List.mem_range] at hi
    exact decide_eq_true (lt_of_lt_of_le hi (le_max_right _ _))
  simp only [this, if_true]

theorem Inv.step {k k' : Known} {c : Call} {o : Obj} (I : Inv k o) (h : Ok k c k') : ∃ o', exec .storage o c = some o' ∧ Inv k' o' := by
  cases h with
  | setEnvironment hd => exact ⟨_, rfl, I.size, fun d e => by (cases e; exact ⟨hd, rfl⟩), I.filled, I.pre, fun e => by (cases e)⟩
  | @setup dims goal hd hg =>
    obtain ⟨s1, s2⟩ := I.shape dims hd
    have hN : o.shape.ncells = dims.prod := by rw [s2]; exact mk'_ncells s1.1
    show ∃ o', o.setHeuristics .storage goal = some o' ∧ _
    unfold Obj.setHeuristics
    by_cases hp : o.pre = true
    · simp only [hp, if_true]
      refine ⟨_, rfl, I.size, I.shape, ?_, ?_, fun _ => ⟨dims, goal, hd, hg, by rw [s2]⟩⟩
      · intro n hn
        rw [I.pre, Option.isSome_iff_exists] at hp
        obtain ⟨m, hm⟩ := hp
        simp only [hm, Option.getD_some, Option.some.injEq] at hn
        subst hn
        exact I.filled m hm
      · simp [hp]
    · simp only [hp]
      refine ⟨_, pre_storage _, I.size, I.shape, ?_, by simp, fun _ => ⟨dims, goal, hd, hg, by rw [← s2]; rfl⟩⟩
      intro n hn
      have hnone : k.filled = none := by
        rw [I.pre] at hp
        cases hf : k.filled with
        | none => rfl
        | some m => rw [hf] at hp; simp at hp
      simp only [hnone, Option.getD_none, Option.some.injEq] at hn
      subst hn
      show dims.prod ≤ max _ _
      exact le_trans hN.ge (le_max_right _ _)
  | @precompute dims hd =>
    obtain ⟨s1, s2⟩ := I.shape dims hd
    have hN : o.shape.ncells = dims.prod := by rw [s2]; exact mk'_ncells s1.1
    refine ⟨_, pre_storage o, I.size, I.shape, ?_, by simp, I.goal⟩
    intro n hn
    simp only [Option.some.injEq] at hn
    subst hn
    show max _ _ ≤ max _ _
    rw [hN]
    apply max_le (le_max_right _ _)
    refine le_trans ?_ (le_max_left _ _)
    cases hf : k.filled with
    | none => simp
    | some m => exact I.filled m hf
  | @compute dims n visited hd hf hle hgs hv =>
    obtain ⟨s1, s2⟩ := I.shape dims hd
    obtain ⟨dims', goal, e1, e2, e3⟩ := I.goal hgs
    rw [hd] at e1; cases e1
    refine ⟨o, ?_, I⟩
    have : (visited.all fun i => o.access .storage (distIdx o.shape o.goalCoord i)) = true := by
      rw [List.all_eq_true]
      intro i hi
      have h1 := C41_table_index_in_range s1.1 s1.2 (hv i hi) e2
      rw [mk'_ncells s1.1] at h1
      rw [s2, e3]
      exact decide_eq_true (lt_of_lt_of_le h1 (le_trans hle (I.filled n hf)))
    simp only [exec, this, if_true]
  | clear => exact ⟨_, rfl, rfl, I.shape, fun n e => by (cases e), rfl, I.goal⟩
  | reset => exact ⟨_, rfl, I⟩

theorem execAll_append (r : Rule) (cs ds : List Call) : ∀ o, execAll r (cs ++ ds) o = (execAll r cs o).bind (execAll r ds) := by
  induction cs with
  | nil => intro o; simp [execAll]
  | cons c cs ih => intro o; simp only [List.cons_append, execAll]; cases exec r o c <;> simp [ih]

theorem careful_inv (coord : List Nat) (s : Shape) {cs : List Call} {k : Known} (h : Careful cs k) : ∃ o, execAll .storage cs (new coord s) = some o ∧ Inv k o := by
  induction h with
  | nil => exact ⟨_, rfl, rfl, fun d e => by (cases e), fun n e => by (cases e), rfl, fun e => by (cases e)⟩
  | snoc hcs hok ih =>
    obtain ⟨o, h1, h2⟩ := ih
    obtain ⟨o', h3, h4⟩ := h2.step hok
    exact ⟨o', by rw [execAll_append, h1]; simp [execAll, h3], h4⟩

/-- **C88** (partial: as long as the object is not copied and no run uses a grid with more cells than the grids the table was filled for): in every history of set-ups, runs,
resets and clears, every access to the table of distances is inside its storage. -/
theorem _root_.FMV.C88_inside_storage_partial (coord : List Nat) (s : Shape) (cs : List Call) (k : Known) (h : Careful cs k) :
    ∃ o, execAll .storage cs (new coord s) = some o := by
  obtain ⟨o, h1, _⟩ := careful_inv coord s h
  exact ⟨o, h1⟩

theorem distIdx_zero {dims : List Nat} (h : Fits dims (2^32)) (hd : ∀ n ∈ dims, n ≤ 65536) {i : Nat} (hi : i < dims.prod) :
    distIdx (Shape.mk' dims) ((Shape.mk' dims).idx2coord 0) i = i := by
  have hN := mk'_ncells h
  have h0 : 0 < dims.prod := by omega
  obtain ⟨bi, ri⟩ := C01_idx_roundtrip dims h i (by rw [hN]; exact hi)
  obtain ⟨b0, r0⟩ := C01_idx_roundtrip dims h 0 (by rw [hN]; exact h0)
  have e0 : ∀ c ∈ (Shape.mk' dims).idx2coord 0, c = 0 := by
    intro c hc
    rw [idx2coord_eq h h0] at hc
    obtain ⟨k, _, rfl⟩ := List.mem_map.1 hc
    simp [digit]
  unfold distIdx
  have : List.zipWith (fun p h => absUI (toI32 (u32sub p h))) ((Shape.mk' dims).idx2coord i) ((Shape.mk' dims).idx2coord 0) = (Shape.mk' dims).idx2coord i := by
    have gen : ∀ (a b : List Nat), a.length = b.length → (∀ x ∈ a, x < 65536) → (∀ x ∈ b, x = 0) → List.zipWith (fun p h => absUI (toI32 (u32sub p h))) a b = a := by
      intro a
      induction a with
      | nil => intro b _ _ _; simp
      | cons x a ih =>
        intro b hl ha hb
        cases b with
        | nil => simp at hl
        | cons y b =>
          have hy : y = 0 := hb y (by simp)
          subst hy
          have hx := ha x (by simp)
          rw [List.zipWith_cons_cons, ih b (by simpa using hl) (fun z hz => ha z (by simp [hz])) (fun z hz => hb z (by simp [hz]))]
          rw [absUI_diff (by omega) (by omega)]
          simp
    refine gen _ _ (by rw [bi.1, b0.1]) ?_ e0
    exact bi.mem_lt hd
  rw [this, ri]

/-- **C88** is false when the same object is used on a larger grid: the table is not computed again (`precomputed_` is still set), so that whatever happened before, the distance of a cell
beyond the old storage is read from memory that does not belong to the table. -/
theorem _root_.FMV.C88_refuted_larger_grid (coord : List Nat) (s : Shape) (d1 d2 : List Nat) (h1 : GridOk d1) (h2 : GridOk d2) (hlt : d1.prod < d2.prod) (goal1 : Nat)
    (hg : goal1 < d1.prod) (visited : List Nat) (hv : ∀ i ∈ visited, i < d1.prod) :
    (∃ o, execAll .storage [.setEnvironment d1, .setup goal1, .compute visited, .reset, .setEnvironment d2, .setup 0] (new coord s) = some o) ∧
    execAll .storage [.setEnvironment d1, .setup goal1, .compute visited, .reset, .setEnvironment d2, .setup 0, .compute [d2.prod - 1]] (new coord s) = none := by
  have C : Careful [.setEnvironment d1, .setup goal1, .compute visited, .reset, .setEnvironment d2, .setup 0] ⟨some d2, some d1.prod, true⟩ := by
    have c1 := Careful.nil.snoc (Ok.setEnvironment h1)
    have c2 := c1.snoc (Ok.setup (goal := goal1) rfl hg)
    have c3 := c2.snoc (Ok.compute (visited := visited) rfl rfl (le_refl _) rfl hv)
    have c4 := c3.snoc Ok.reset
    have c5 := c4.snoc (Ok.setEnvironment h2)
    exact c5.snoc (Ok.setup (goal := 0) rfl (by omega))
  obtain ⟨o, ho, I⟩ := careful_inv coord s C
  refine ⟨⟨o, ho⟩, ?_⟩
  have e : ([.setEnvironment d1, .setup goal1, .compute visited, .reset, .setEnvironment d2, .setup 0, .compute [d2.prod - 1]] : List Call) =
    [.setEnvironment d1, .setup goal1, .compute visited, .reset, .setEnvironment d2, .setup 0] ++ [.compute [d2.prod - 1]] := rfl
  -- the storage is that of the first grid
  have hcap : o.cap = d1.prod ∧ o.shape = Shape.mk' d2 ∧ o.goalCoord = (Shape.mk' d2).idx2coord 0 := by
    have hN := mk'_ncells h1.1
    have hread : (visited.all fun i => Obj.access .storage ⟨0, max 0 (Shape.mk' d1).ncells, true, (Shape.mk' d1).idx2coord goal1, Shape.mk' d1⟩
        (distIdx (Shape.mk' d1) ((Shape.mk' d1).idx2coord goal1) i)) = true := by
      rw [List.all_eq_true]
      intro i hi
      exact decide_eq_true (lt_of_lt_of_le (C41_table_index_in_range h1.1 h1.2 (hv i hi) hg) (le_max_right _ _))
    have := ho
    simp only [execAll, exec, new, Obj.setHeuristics, Option.bind_some] at this
    rw [if_neg (by simp), pre_storage] at this
    simp only [Option.bind_some, Obj.reserve] at this
    rw [if_pos hread] at this
    simp only [Option.bind_some, if_true, Option.some.injEq] at this
    subst this
    exact ⟨by show max 0 _ = _; rw [hN]; simp, rfl, rfl⟩
  rw [e, execAll_append, ho]
  have hd : distIdx (Shape.mk' d2) ((Shape.mk' d2).idx2coord 0) (d2.prod - 1) = d2.prod - 1 := distIdx_zero h2.1 h2.2 (by omega)
  have : ¬ (d2.prod - 1 < d1.prod) := by omega
  simp [execAll, exec, hcap, hd, Obj.access, this]

/-- **C88** is false for copies: whatever the history, a copy of an object whose table has been filled claims to have the table (`precomputed_` is copied) but has no storage for it - the
elements were written beyond `size()` - so that the first distance it reads is outside. -/
theorem _root_.FMV.C88_refuted_copy (coord : List Nat) (s : Shape) (cs : List Call) (k : Known) (h : Careful cs k) (dims : List Nat) (hd : k.dims = some dims) (n : Nat)
    (hf : k.filled = some n) (goal : Nat) (visited : List Nat) (hv : visited ≠ []) :
    (∃ o, execAll .storage (cs ++ [.copy, .setup goal]) (new coord s) = some o) ∧
    execAll .storage (cs ++ [.copy, .setup goal, .compute visited]) (new coord s) = none := by
  obtain ⟨o, ho, I⟩ := careful_inv coord s h
  have hp : o.pre = true := by rw [I.pre, hf]; rfl
  constructor
  · rw [execAll_append, ho]
    exact ⟨_, by simp [execAll, exec, Obj.setHeuristics, hp]; rfl⟩
  · rw [execAll_append, ho]
    cases visited with
    | nil => exact absurd rfl hv
    | cons x xs => simp [execAll, exec, Obj.setHeuristics, hp, Obj.access, I.size]

/-- **C88** is false by the letter of the C++ standard: `size()` is 0 in every history, so that filling the table is undefined behaviour from the first element on, on every grid. -/
theorem _root_.FMV.C88_refuted_standard (coord : List Nat) (s : Shape) (cs : List Call) (k : Known) (h : Careful cs k) (dims : List Nat) (hd : k.dims = some dims) :
    ∃ o, execAll .storage cs (new coord s) = some o ∧ o.size = 0 ∧ exec .standard o .precompute = none := by
  obtain ⟨o, ho, I⟩ := careful_inv coord s h
  refine ⟨o, ho, I.size, ?_⟩
  obtain ⟨s1, s2⟩ := I.shape dims hd
  have hN : o.shape.ncells = dims.prod := by rw [s2]; exact mk'_ncells s1.1
  have hpos : 0 < o.shape.ncells := by
    rw [hN]; exact Nat.pos_of_ne_zero (fun e => absurd (List.prod_eq_zero_iff.1 e) (fun h0 => absurd (s1.1.pos 0 h0) (lt_irrefl _)))
  show o.precompute .standard = none
  unfold Obj.precompute
  have : (List.range (o.reserve o.shape.ncells).shape.ncells).all ((o.reserve o.shape.ncells).access .standard) = false := by
    rw [← Bool.not_eq_true, List.all_eq_true]
    intro hall
    have := hall 0 (List.mem_range.2 hpos)
    simp [Obj.access, Obj.reserve, I.size] at this
  simp only [this]
  rfl

/-- non-vacuity: two grids, a table filled, used, cleared, filled for the larger grid and used again -/
example : ∃ k, Careful [.setEnvironment [4, 3], .setup 5, .compute [0, 11], .clear, .setEnvironment [10, 10], .setup 99, .compute [0, 99]] k ∧ k.dims = some [10, 10] ∧ k.filled = some 100 := by
  have g1 : GridOk [4, 3] := ⟨⟨by decide, by decide, by decide⟩, by decide⟩
  have g2 : GridOk [10, 10] := ⟨⟨by decide, by decide, by decide⟩, by decide⟩
  have c1 := Careful.nil.snoc (Ok.setEnvironment g1)
  have c2 := c1.snoc (Ok.setup (goal := 5) rfl (by decide))
  have c3 := c2.snoc (Ok.compute (visited := [0, 11]) rfl rfl (le_refl _) rfl (by decide))
  have c4 := c3.snoc Ok.clear
  have c5 := c4.snoc (Ok.setEnvironment g2)
  have c6 := c5.snoc (Ok.setup (goal := 99) rfl (by decide))
  have c7 := c6.snoc (Ok.compute (visited := [0, 99]) rfl rfl (le_refl _) rfl (by decide))
  exact ⟨_, c7, rfl, rfl⟩

end DistTable
end FMV
