import Verif.Model.Print
import Verif.Props.Decimal
import Verif.Props.FSM
/-
C114: what is printed about cells, grids, coordinates and solvers.
-/
namespace FMV.Print
open Console Text FMV.IO Spec Shape Decimal
variable {F : Type} [Arith F] {fmt : F → Str} {R : Rounding}

theorem split_at {c : Char} : ∀ {a b x y : Str}, c ∉ a → c ∉ b → a ++ c :: x = b ++ c :: y → a = b ∧ x = y
  | [], [], _, _, _, _, h => ⟨rfl, (List.cons.inj h).2⟩
  | [], d :: b, _, _, _, hb, h => absurd ((List.cons.inj h).1 ▸ List.mem_cons_self) hb
  | d :: a, [], _, _, ha, _, h => absurd ((List.cons.inj h).1 ▸ List.mem_cons_self) ha
  | d :: a, e :: b, x, y, ha, hb, h => by
    obtain ⟨h1, h2⟩ := List.cons.inj h
    obtain ⟨e1, e2⟩ := split_at (fun h => ha (List.mem_cons_of_mem _ h)) (fun h => hb (List.mem_cons_of_mem _ h)) h2
    exact ⟨by rw [h1, e1], e2⟩

theorem decimal_inj {m n : Nat} (h : decimal m = decimal n) : m = n := by rw [← read_decimal m, h, read_decimal]

theorem decimal_not {c : Char} (hc : c ∉ "0123456789".toList) (n : Nat) : c ∉ decimal n := fun h => hc ((decimal_number n).2 c h)

theorem state_line (s : FMState) : '\n' ∉ stateName s := by cases s <;> decide

theorem state_inj {s t : FMState} (h : stateName s = stateName t) : s = t := by cases s <;> cases t <;> first | rfl | exact absurd h (by decide)

/-- one line is printed per number -/
def OneLine (fmt : F → Str) : Prop := ∀ x, '\n' ∉ fmt x ∧ ' ' ∉ fmt x

omit [Arith F] in
/-- **C114**: two cells are printed alike exactly if they have the same index and state, and value and velocity are printed alike. -/
theorem _root_.FMV.C114_cell (hf : OneLine fmt) (c d : Cell F) :
    fmCellText fmt c = fmCellText fmt d ↔ c.index = d.index ∧ fmt c.value = fmt d.value ∧ fmt c.occupancy = fmt d.occupancy ∧ c.state = d.state := by
  constructor
  · intro h
    unfold fmCellText at h
    obtain ⟨h1, h⟩ := split_at (decimal_not (by decide) _) (decimal_not (by decide) _) (List.append_cancel_left h)
    obtain ⟨h2, h⟩ := split_at (hf _).1 (hf _).1 (List.append_cancel_left h)
    obtain ⟨h3, h⟩ := split_at (hf _).1 (hf _).1 (List.append_cancel_left h)
    exact ⟨decimal_inj h1, h2, h3, state_inj (split_at (state_line _) (state_line _) (List.append_cancel_left h)).1⟩
  · rintro ⟨h1, h2, h3, h4⟩
    unfold fmCellText
    rw [h1, h2, h3, h4]

omit [Arith F] in
/-- the same for the cells of plain grid maps -/
theorem _root_.FMV.C114_plain_cell (hf : OneLine fmt) (c d : Cell F) :
    cellText fmt c = cellText fmt d ↔ c.index = d.index ∧ fmt c.value = fmt d.value ∧ fmt c.occupancy = fmt d.occupancy := by
  constructor
  · intro h
    unfold cellText at h
    obtain ⟨h1, h⟩ := split_at (decimal_not (by decide) _) (decimal_not (by decide) _) (List.append_cancel_left h)
    obtain ⟨h2, h⟩ := split_at (hf _).1 (hf _).1 (List.append_cancel_left h)
    exact ⟨decimal_inj h1, h2, (split_at (hf _).1 (hf _).1 (List.append_cancel_left h)).1⟩
  · rintro ⟨h1, h2, h3⟩
    unfold cellText
    rw [h1, h2, h3]

theorem fmtG_chars (x : F64 R) {c : Char} (h : c ∈ fmtG x) : c = '-' ∨ c = '+' ∨ c = '.' ∨ c.isAlphanum = true := by
  have num : ∀ {s : Str}, (∀ c ∈ s, c ∈ "0123456789".toList) → c ∈ s → c = '-' ∨ c = '+' ∨ c = '.' ∨ c.isAlphanum = true := fun hs hc => by
    have h1 : ∀ c ∈ "0123456789".toList, c.isAlphanum = true := by decide
    exact .inr (.inr (.inr (h1 c (hs c hc))))
  cases e : x.1 with
  | fin r =>
    obtain ⟨sg, int, frac, exp, e, h1, h2, h3, h4⟩ := (fmtG_value e).1
    rw [e] at h
    simp only [List.mem_append] at h
    rcases h with ((h | h) | h) | h
    · rcases h1 with rfl | rfl
      · cases h
      · exact .inl (List.mem_singleton.1 h)
    · exact num h2.2 h
    · rcases h3 with rfl | ⟨f, rfl, hd⟩
      · cases h
      · rcases List.mem_cons.1 h with h | h
        · exact .inr (.inr (.inl h))
        · exact num hd h
    · rcases h4 with rfl | ⟨sg, e', rfl, hs, hd⟩
      · cases h
      · rcases List.mem_cons.1 h with h | h
        · subst h; exact .inr (.inr (.inr (by decide)))
        rcases List.mem_cons.1 h with h | h
        · rw [h]; rcases hs with h | h
          · exact .inr (.inl h)
          · exact .inl h
        · exact num hd.2 h
  | pinf =>
    unfold fmtG at h; rw [e] at h
    have : ∀ c ∈ "inf".toList, c.isAlphanum = true := by decide
    exact .inr (.inr (.inr (this c h)))
  | ninf =>
    unfold fmtG at h; rw [e] at h
    have : ∀ c ∈ "-inf".toList, c = '-' ∨ c.isAlphanum = true := by decide
    rcases this c h with h | h
    · exact .inl h
    · exact .inr (.inr (.inr h))
  | nan =>
    unfold fmtG at h; rw [e] at h
    have : ∀ c ∈ "nan".toList, c.isAlphanum = true := by decide
    exact .inr (.inr (.inr (this c h)))

theorem fmtG_digits (x : F64 R) {c : Char} (h1 : c ≠ '-') (h2 : c ≠ '+') (h3 : c ≠ '.') (h4 : c.isAlphanum = false) : c ∉ fmtG x := fun h => by
  rcases fmtG_chars x h with h | h | h | h
  · exact h1 h
  · exact h2 h
  · exact h3 h
  · rw [h4] at h; cases h

theorem _root_.FMV.C114_numbers_one_line : OneLine (fmtG (R := R)) := fun x =>
  ⟨fmtG_digits x (by decide) (by decide) (by decide) (by decide), fmtG_digits x (by decide) (by decide) (by decide) (by decide)⟩

/-- **C114**: numbers printed alike are the same number, or finite and have a common nearest number with six significant digits. -/
theorem _root_.FMV.C114_number (x y : F64 R) (h : fmtG x = fmtG y) : x = y ∨ ∃ r s d, x.1 = .fin r ∧ y.1 = .fin s ∧ NearestSix r d ∧ NearestSix s d := by
  have inft : ∀ {x : F64 R}, x.1 = .pinf → fmtG x = "inf".toList := fun h => by unfold fmtG; rw [h]
  have ninft : ∀ {x : F64 R}, x.1 = .ninf → fmtG x = "-inf".toList := fun h => by unfold fmtG; rw [h]
  have nant : ∀ {x : F64 R}, x.1 = .nan → fmtG x = "nan".toList := fun h => by unfold fmtG; rw [h]
  have np : ∀ {s : Str}, s = "inf".toList ∨ s = "-inf".toList ∨ s = "nan".toList → parse s = none := by
    rintro s (rfl | rfl | rfl) <;> rfl
  have fin_case : ∀ {x y : F64 R} {r : ℝ}, x.1 = .fin r → fmtG x = fmtG y → ∃ s d, y.1 = .fin s ∧ NearestSix r d ∧ NearestSix s d := by
    intro x y r hx h
    obtain ⟨-, -, n, k, h1, h2⟩ := fmtG_value hx
    rw [h] at h1
    cases hy : y.1 with
    | fin s =>
      obtain ⟨-, -, n', k', h1', h2'⟩ := fmtG_value hy
      rw [h1'] at h1
      cases h1
      refine ⟨s, dec r, rfl, dec_nearest r, ?_⟩
      rw [← h2, h2']; exact dec_nearest s
    | pinf => rw [np (.inl (inft hy))] at h1; cases h1
    | ninf => rw [np (.inr (.inl (ninft hy)))] at h1; cases h1
    | nan => rw [np (.inr (.inr (nant hy)))] at h1; cases h1
  cases hx : x.1 with
  | fin r =>
    obtain ⟨s, d, h1, h2, h3⟩ := fin_case hx h
    exact .inr ⟨r, s, d, rfl, h1, h2, h3⟩
  | _ =>
    cases hy : y.1 with
    | fin s =>
      obtain ⟨r, d, h1, -⟩ := fin_case hy h.symm
      rw [hx] at h1; cases h1
    | _ =>
      first
      | exact .inl (Subtype.ext (hx.trans hy.symm))
      | exfalso
        revert h
        unfold fmtG
        rw [hx, hy]
        decide

theorem dimLines_inj : ∀ {i : Nat} {l m : List Nat}, dimLines i l = dimLines i m → l = m
  | _, [], [], _ => rfl
  | i, [], d :: m, h => by unfold dimLines at h; exact absurd h (by simp)
  | i, d :: l, [], h => by unfold dimLines at h; exact absurd h (by simp)
  | i, d :: l, e :: m, h => by
    unfold dimLines at h
    obtain ⟨h1, h2⟩ := split_at (decimal_not (by decide) _) (decimal_not (by decide) _) (List.append_cancel_left (List.append_cancel_left (List.append_cancel_left h)))
    rw [decimal_inj h1, dimLines_inj h2]

omit [Arith F] in
/-- **C114**: every grid with cells can be printed, and grids printed alike have the same sizes, number of cells, and leaf sizes printed alike. -/
theorem _root_.FMV.C114_grid (hf : OneLine fmt) (g g' : Grid F) (h0 : g.shape.ncells ≠ 0) (h0' : g'.shape.ncells ≠ 0) :
    (∃ t, gridText fmt g = some t) ∧ (gridText fmt g = gridText fmt g' →
      g.shape.dims = g'.shape.dims ∧ g.shape.ncells = g'.shape.ncells ∧ fmt g.leaf = fmt g'.leaf) := by
  constructor
  · unfold gridText
    rw [if_neg h0]
    exact ⟨_, rfl⟩
  intro h
  unfold gridText at h
  rw [if_neg h0, if_neg h0'] at h
  obtain ⟨h1, h⟩ := split_at (decimal_not (by decide) _) (decimal_not (by decide) _) (List.append_cancel_left (Option.some.inj h))
  obtain ⟨h2, h⟩ := split_at (hf _).2 (hf _).2 (List.append_cancel_left h)
  obtain ⟨h3, h⟩ := split_at (decimal_not (by decide) _) (decimal_not (by decide) _) (List.append_cancel_left h)
  exact ⟨dimLines_inj (List.append_cancel_left h), decimal_inj h1, h2⟩

theorem coordsText_inj : ∀ {l m : List Nat}, coordsText l = coordsText m → l = m
  | [], [], _ => rfl
  | [], d :: m, h => by
    have : '\t' ∈ coordsText ([] : List Nat) := by rw [h]; simp [coordsText]
    simp [coordsText] at this
  | d :: l, [], h => by
    have : '\t' ∈ coordsText ([] : List Nat) := by rw [← h]; simp [coordsText]
    simp [coordsText] at this
  | d :: l, e :: m, h => by
    have e1 : ∀ (d : Nat) l, coordsText (d :: l) = decimal d ++ '\t' :: coordsText l := fun d l => by simp [coordsText]
    rw [e1, e1] at h
    obtain ⟨h1, h2⟩ := split_at (decimal_not (by decide) _) (decimal_not (by decide) _) h
    rw [decimal_inj h1, coordsText_inj h2]

/-- **C114**: `showCoords` prints the coordinates of the cell, different cells are shown differently, and `showIdx` of the coordinates shown prints the index. -/
theorem _root_.FMV.C114_coords (dims : List Nat) (h : Fits dims (2^32)) (i : Nat) (hi : i < dims.prod) :
    (∃ cs, InBox dims cs ∧ rowMajor dims cs = i ∧ showCoords (mk' dims) i = coordsText cs ∧ showIdx (mk' dims) cs = decimal i ++ ['\n']) ∧
    ∀ j, j < dims.prod → showCoords (mk' dims) i = showCoords (mk' dims) j → i = j := by
  have hn := mk'_ncells h
  obtain ⟨h1, h2⟩ := C01_idx_roundtrip dims h i (by rw [hn]; exact hi)
  refine ⟨⟨_, h1, ?_, rfl, ?_⟩, fun j hj e => ?_⟩
  · rw [← (C01_coord_roundtrip dims h _ h1).2.1, h2]
  · unfold showIdx; rw [h2]
  · obtain ⟨-, h4⟩ := C01_idx_roundtrip dims h j (by rw [hn]; exact hj)
    rw [← h2, coordsText_inj e, h4]

/-- the part of the information of FSM and LSM after the heading -/
def sweepLines (fmt : F → Str) (o : Obj F) (m : Nat) (name : Str) (time : F) : Str :=
  name ++ '\n' :: ("\tMaximum sweeps: ".toList ++ (decimal m ++ '\n' :: ("\tSweeps performed: ".toList ++ (decimal o.sweeps ++ '\n' :: elapsed fmt time))))

omit [Arith F] in
theorem elapsed_congr {t t' : F} (h : fmt t = fmt t') : elapsed fmt t = elapsed fmt t' := by unfold elapsed; rw [h]

omit [Arith F] in
theorem sweepLines_congr {o o' : Obj F} {n n' : Str} {t t' : F} (m : Nat) (h1 : n = n') (h2 : o.sweeps = o'.sweeps) (h3 : fmt t = fmt t') : sweepLines fmt o m n t = sweepLines fmt o' m n' t' := by
  unfold sweepLines; rw [h1, h2, elapsed_congr h3]

omit [Arith F] in
theorem run_fmm {o : Obj F} {n : Str} {t : F} {b : Bool} {k : Heur} (ho : o.kind = .fmm b k) : runInfo fmt o n t =
    info "Fast Marching Method".toList ++ '\t' :: (n ++ '\n' :: ("\tHeuristic type: ".toList ++ (decimal (heurCode o.heur) ++ '\n' :: elapsed fmt t))) := by
  unfold runInfo; rw [ho]

omit [Arith F] in
theorem run_fsm {o : Obj F} {n : Str} {t : F} {m : Nat} (ho : o.kind = .fsm m) : runInfo fmt o n t = info "Fast Sweeping Method".toList ++ '\t' :: sweepLines fmt o m n t := by
  unfold runInfo; rw [ho]; rfl

omit [Arith F] in
theorem run_lsm {o : Obj F} {n : Str} {t : F} {m : Nat} (ho : o.kind = .lsm m) : runInfo fmt o n t = info "Lock Sweeping Method".toList ++ '\t' :: sweepLines fmt o m n t := by
  unfold runInfo; rw [ho]; rfl

omit [Arith F] in
theorem sweepLines_inj (hf : OneLine fmt) {o o' : Obj F} {n n' : Str} {t t' : F} {m m' : Nat} (hn : '\n' ∉ n) (hn' : '\n' ∉ n') (h : sweepLines fmt o m n t = sweepLines fmt o' m' n' t') :
    m = m' ∧ n = n' ∧ o.sweeps = o'.sweeps ∧ fmt t = fmt t' := by
  unfold sweepLines at h
  obtain ⟨h1, h⟩ := split_at hn hn' h
  obtain ⟨h2, h⟩ := split_at (decimal_not (by decide) _) (decimal_not (by decide) _) (List.append_cancel_left h)
  obtain ⟨h3, h⟩ := split_at (decimal_not (by decide) _) (decimal_not (by decide) _) (List.append_cancel_left h)
  exact ⟨decimal_inj h2, h1, decimal_inj h3, (split_at (c := ' ') (hf _).2 (hf _).2 (List.append_cancel_left h)).1⟩

theorem headings {x y : Str} (h : info "Fast Sweeping Method".toList ++ x = info "Lock Sweeping Method".toList ++ y) : False := by
  have := congrArg (fun l => l[14]?) h
  revert this
  show ¬ some 'F' = some 'L'
  decide

omit [Arith F] in
/-- **C114**: from the information of FMM, FMM*, SFMM and SFMM* one can read the name, the heuristic and the time. -/
theorem _root_.FMV.C114_run_fmm (hf : OneLine fmt) (o o' : Obj F) (n n' : Str) (t t' : F) {b b' : Bool} {k k' : Heur} (ho : o.kind = .fmm b k) (ho' : o'.kind = .fmm b' k')
    (hn : '\n' ∉ n) (hn' : '\n' ∉ n') : runInfo fmt o n t = runInfo fmt o' n' t' ↔ n = n' ∧ o.heur = o'.heur ∧ fmt t = fmt t' := by
  rw [run_fmm ho, run_fmm ho']
  constructor
  · intro h
    obtain ⟨h1, h⟩ := split_at hn hn' (List.cons.inj (List.append_cancel_left h)).2
    obtain ⟨h2, h⟩ := split_at (decimal_not (by decide) _) (decimal_not (by decide) _) (List.append_cancel_left h)
    refine ⟨h1, ?_, (split_at (c := ' ') (hf _).2 (hf _).2 (List.append_cancel_left h)).1⟩
    have := decimal_inj h2
    revert this
    cases o.heur <;> cases o'.heur <;> simp [heurCode]
  · rintro ⟨h1, h2, h3⟩
    rw [h1, h2, elapsed_congr h3]

omit [Arith F] in
/-- **C114**: from the information of FSM and LSM one can read the name, the limit and the number of sweeps, and the time; the two classes are distinguished. -/
theorem _root_.FMV.C114_run_sweeps (hf : OneLine fmt) (o o' : Obj F) (n n' : Str) (t t' : F) {m m' : Nat} (ho : o.kind = .fsm m ∨ o.kind = .lsm m) (ho' : o'.kind = .fsm m' ∨ o'.kind = .lsm m')
    (hn : '\n' ∉ n) (hn' : '\n' ∉ n') : runInfo fmt o n t = runInfo fmt o' n' t' ↔ o.kind = o'.kind ∧ n = n' ∧ o.sweeps = o'.sweeps ∧ fmt t = fmt t' := by
  constructor
  · intro h
    rcases ho with ho | ho <;> rcases ho' with ho' | ho'
    · rw [run_fsm ho, run_fsm ho'] at h
      obtain ⟨h1, h2⟩ := sweepLines_inj hf hn hn' (List.cons.inj (List.append_cancel_left h)).2
      exact ⟨by rw [ho, ho', h1], h2⟩
    · rw [run_fsm ho, run_lsm ho'] at h; exact absurd h headings
    · rw [run_lsm ho, run_fsm ho'] at h; exact absurd h.symm headings
    · rw [run_lsm ho, run_lsm ho'] at h
      obtain ⟨h1, h2⟩ := sweepLines_inj hf hn hn' (List.cons.inj (List.append_cancel_left h)).2
      exact ⟨by rw [ho, ho', h1], h2⟩
  · rintro ⟨h0, h1, h2, h3⟩
    rcases ho' with ho' | ho'
    · rw [run_fsm (h0.trans ho'), run_fsm ho']; exact congrArg _ (congrArg _ (sweepLines_congr _ h1 h2 h3))
    · rw [run_lsm (h0.trans ho'), run_lsm ho']; exact congrArg _ (congrArg _ (sweepLines_congr _ h1 h2 h3))

omit [Arith F] in
theorem run_ddqm {o : Obj F} {n : Str} {t : F} (ho : o.kind = .ddqm) : runInfo fmt o n t = info "Double Dynamic Queue Method".toList ++ '\t' :: (n ++ '\n' :: elapsed fmt t) := by
  unfold runInfo; rw [ho]

omit [Arith F] in
theorem run_ufmm {o : Obj F} {n : Str} {t : F} {s : Nat} {inc : F} {ub : F → Nat} (ho : o.kind = .ufmm s inc ub) : runInfo fmt o n t =
    info "Untidy Fast Marching Method".toList ++ '\t' :: (n ++ '\n' :: ("\tNumber of buckets: ".toList ++ (decimal s ++ '\n' :: ("\tMaximum increment ".toList ++
      (fmt inc ++ '\n' :: elapsed fmt t))))) := by
  unfold runInfo; rw [ho]

omit [Arith F] in
/-- **C114**: from the information of DDQM one can read the name and the time. -/
theorem _root_.FMV.C114_run_ddqm (hf : OneLine fmt) (o o' : Obj F) (n n' : Str) (t t' : F) (ho : o.kind = .ddqm) (ho' : o'.kind = .ddqm) (hn : '\n' ∉ n) (hn' : '\n' ∉ n') :
    runInfo fmt o n t = runInfo fmt o' n' t' ↔ n = n' ∧ fmt t = fmt t' := by
  rw [run_ddqm ho, run_ddqm ho']
  constructor
  · intro h
    obtain ⟨h1, h⟩ := split_at hn hn' (List.cons.inj (List.append_cancel_left h)).2
    exact ⟨h1, (split_at (c := ' ') (hf _).2 (hf _).2 (List.append_cancel_left h)).1⟩
  · rintro ⟨h1, h2⟩
    rw [h1, elapsed_congr h2]

omit [Arith F] in
/-- **C114**: from the information of UFMM one can read the name, the number of buckets, the largest increment and the time. -/
theorem _root_.FMV.C114_run_ufmm (hf : OneLine fmt) (o o' : Obj F) (n n' : Str) (t t' : F) {s s' : Nat} {inc inc' : F} {ub ub' : F → Nat} (ho : o.kind = .ufmm s inc ub)
    (ho' : o'.kind = .ufmm s' inc' ub') (hn : '\n' ∉ n) (hn' : '\n' ∉ n') :
    runInfo fmt o n t = runInfo fmt o' n' t' ↔ n = n' ∧ s = s' ∧ fmt inc = fmt inc' ∧ fmt t = fmt t' := by
  rw [run_ufmm ho, run_ufmm ho']
  constructor
  · intro h
    obtain ⟨h1, h⟩ := split_at hn hn' (List.cons.inj (List.append_cancel_left h)).2
    obtain ⟨h2, h⟩ := split_at (decimal_not (by decide) _) (decimal_not (by decide) _) (List.append_cancel_left h)
    obtain ⟨h3, h⟩ := split_at (hf _).1 (hf _).1 (List.append_cancel_left h)
    exact ⟨h1, decimal_inj h2, h3, (split_at (c := ' ') (hf _).2 (hf _).2 (List.append_cancel_left h)).1⟩
  · rintro ⟨h1, h2, h3, h4⟩
    rw [h1, h2, h3, elapsed_congr h4]

/-- the families of classes that print the same heading: FMM with FMM*, SFMM and SFMM*; FSM; LSM; DDQM; UFMM; FIM and GMM -/
inductive Family where
  | fmm | fsm | lsm | ddqm | ufmm | other

/-- the family of a class -/
def family : Kind F → Family
  | .fmm _ _ => .fmm
  | .fsm _ => .fsm
  | .lsm _ => .lsm
  | .ddqm => .ddqm
  | .ufmm _ _ _ => .ufmm
  | .fim _ => .other
  | .gmm _ => .other

/-- the first line, without its end -/
def heading : Family → Str
  | .fmm => "\x1b[1;34m[INFO] Fast Marching Method\x1b[0m".toList
  | .fsm => "\x1b[1;34m[INFO] Fast Sweeping Method\x1b[0m".toList
  | .lsm => "\x1b[1;34m[INFO] Lock Sweeping Method\x1b[0m".toList
  | .ddqm => "\x1b[1;34m[INFO] Double Dynamic Queue Method\x1b[0m".toList
  | .ufmm => "\x1b[1;34m[INFO] Untidy Fast Marching Method\x1b[0m".toList
  | .other => "\x1b[1;33m[WARNING] No run info available.\x1b[0m".toList

theorem heading_line (f : Family) : '\n' ∉ heading f := by cases f <;> decide

theorem heading_inj {f f' : Family} (h : heading f = heading f') : f = f' := by
  cases f <;> cases f' <;> first | rfl | exact absurd h (by decide)

omit [Arith F] in
/-- **C114**: the first line of the information depends on the family of the class only ... -/
theorem _root_.FMV.C114_heading (o : Obj F) (n : Str) (t : F) : ∃ rest, runInfo fmt o n t = heading (family o.kind) ++ '\n' :: rest := by
  cases h : o.kind with
  | fmm b k => rw [run_fmm h]; exact ⟨_, rfl⟩
  | fsm m => rw [run_fsm h]; exact ⟨_, rfl⟩
  | lsm m => rw [run_lsm h]; exact ⟨_, rfl⟩
  | ddqm => rw [run_ddqm h]; exact ⟨_, rfl⟩
  | ufmm s i u => rw [run_ufmm h]; exact ⟨_, rfl⟩
  | fim E => unfold runInfo; rw [h]; exact ⟨_, rfl⟩
  | gmm dt => unfold runInfo; rw [h]; exact ⟨_, rfl⟩

omit [Arith F] in
/-- ... and identifies it: solvers whose information is the same are of the same family. -/
theorem _root_.FMV.C114_family (o o' : Obj F) (n n' : Str) (t t' : F) (h : runInfo fmt o n t = runInfo fmt o' n' t') : family o.kind = family o'.kind := by
  obtain ⟨r, e⟩ := C114_heading (fmt := fmt) o n t
  obtain ⟨r', e'⟩ := C114_heading (fmt := fmt) o' n' t'
  rw [e, e'] at h
  exact heading_inj (split_at (heading_line _) (heading_line _) h).1

/-- **C114**: the number of sweeps printed after a run on an object whose sweep counter is zero (new, or reset) is the number of sweeps of this run, and at most the limit. -/
theorem _root_.FMV.C114_sweeps {pop : FMM.St F → Nat → Prop} {o o' : Obj F} {g g' : Grid F} {m : Nat} (hm : m < 2^32) (ho : o.kind = .fsm m ∨ o.kind = .lsm m) (h0 : o.sweeps = 0)
    (hr : o.runs pop g g' o') : ∃ n s, n ≤ m ∧ o'.sweeps = n ∧ s.g = g' ∧
      ((o.kind = .fsm m ∧ FMM.Steps (FSM.Step m (FSM.solveFSM o.goal eikS)) n (FSM.initFSM g o.pts 0 o.incs) s) ∨
       (o.kind = .lsm m ∧ FMM.Steps (FSM.Step m (FSM.solveLSM o.goal eikS)) n (FSM.initLSM g o.pts 0 o.incs) s)) := by
  unfold Obj.runs at hr
  rcases ho with ho | ho <;> rw [ho] at hr <;> obtain ⟨n, s, hs, -, e1, e2⟩ := hr <;> rw [h0] at hs
  · have := C23_FSM_at_most_maxSweeps _ _ hm _ _ _ _ (Nat.zero_le m) _ _ _ hs
    refine ⟨n, s, by omega, by rw [e2]; show s.sweeps = n; omega, e1.symm, .inl ⟨ho, hs⟩⟩
  · have := C26_LSM_at_most_maxSweeps _ _ hm _ _ _ _ (Nat.zero_le m) _ _ _ hs
    refine ⟨n, s, by omega, by rw [e2]; show s.sweeps = n; omega, e1.symm, .inr ⟨ho, hs⟩⟩

/-- **C114**: times below a million milliseconds are printed in full. -/
theorem _root_.FMV.C114_time {n : Nat} (hn : n < 10^6) {t : F64 R} (ht : t.1 = .fin (n : ℝ)) : elapsed fmtG t = "\tElapsed time: ".toList ++ (decimal n ++ " ms\n".toList) := by
  unfold elapsed; rw [C112_whole t hn ht]

/-- **C114**, refuted: longer times (17 minutes and more) are rounded to six digits: 1000000 and 1000001 milliseconds are printed alike. -/
theorem _root_.FMV.C114_refuted_long (t t' : F64 R) (ht : t.1 = .fin 1000000) (ht' : t'.1 = .fin 1000001) : elapsed fmtG t = elapsed fmtG t' := by
  unfold elapsed; rw [C112_refuted_digits t t' ht ht']

/-- **C114**, refuted: the class cannot be read from the information: FMM and SFMM (and FMM* and SFMM*) print the same, FIM and GMM print nothing but a warning, whatever they computed. -/
theorem _root_.FMV.C114_refuted_class (fmt : F → Str) (j : Junk F) (k : Heur) (n n' : Str) (t t' : F) (o o' : Obj F) (E dt : F)
    (ho : o.kind = .fim E) (ho' : o'.kind = .gmm dt) :
    runInfo fmt (Obj.new (.fmm false k) j) n t = runInfo fmt (Obj.new (.fmm true k) j) n t ∧ runInfo fmt o n t = runInfo fmt o' n' t' := by
  refine ⟨rfl, ?_⟩
  unfold runInfo
  rw [ho, ho']

/-- non-vacuity: two cells of a 3x2 grid -/
example : fmCellText (fmtG (R := R)) (((Grid.create [3,2] (Arith.one : F64 R) (0,0)).setState 4 .frozen).cells 4) =
    "\x1b[1;34m[INFO] Fast Marching cell information:\x1b[0m\n\tIndex: 4\n\tValue: inf\n\tVelocity: 1\n\tState: FROZEN\n".toList := by
  have h1 : fmtG (Arith.inf : F64 R) = "inf".toList := rfl
  have h2 : fmtG (Arith.one : F64 R) = "1".toList := (C112_whole (Arith.one : F64 R) (n := 1) (by norm_num) (by show XR.fin 1 = .fin ((1:ℕ):ℝ); norm_num)).trans (decimal_lt (by norm_num))
  show info "Fast Marching cell information:".toList ++ "\tIndex: ".toList ++ (decimal 4 ++ '\n' :: ("\tValue: ".toList ++ (fmtG (Arith.inf : F64 R) ++ '\n' ::
    ("\tVelocity: ".toList ++ (fmtG (Arith.one : F64 R) ++ '\n' :: ("\tState: ".toList ++ (stateName .frozen ++ ['\n']))))))) = _
  rw [h1, h2, decimal_lt (by norm_num : 4 < 10)]
  decide +kernel

end FMV.Print
