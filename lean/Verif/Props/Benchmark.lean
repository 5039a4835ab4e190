import Verif.Lemmas.Text
import Verif.Props.Reuse
/-
C45: the benchmark executes and logs every run.
-/
set_option linter.unusedSectionVars false
namespace FMV.Bench
open Arith Spec Console Text Shape Life
variable {F : Type} [Arith F] {pop : FMM.St F → Nat → Prop} {b : Bench} {time : Nat → Str}

/-! ## Calls -/

theorem calls_append {cs ds : List Call} {w w' : World F} : Calls pop (cs ++ ds) w w' ↔ ∃ v, Calls pop cs w v ∧ Calls pop ds v w' := by
  induction cs generalizing w with
  | nil =>
    constructor
    · intro h; exact ⟨w, calls_nil.2 rfl, h⟩
    · rintro ⟨v, h1, h2⟩; rw [calls_nil.1 h1] at h2; exact h2
  | cons c cs ih =>
    rw [List.cons_append, calls_cons]
    constructor
    · rintro ⟨v, h1, h2⟩
      obtain ⟨u, h3, h4⟩ := ih.1 h2
      exact ⟨u, calls_cons.2 ⟨v, h1, h3⟩, h4⟩
    · rintro ⟨u, h1, h2⟩
      obtain ⟨v, h3, h4⟩ := calls_cons.1 h1
      exact ⟨v, h3, ih.2 ⟨u, h4, h2⟩⟩

theorem config_calls {l : List (Nat × Str)} {w w' : World F} (h : Config pop b l w w') :
    Calls pop (l.flatMap (fun s => [.setEnvironment s.1, .setPoints s.1 b.pts b.goal])) w w' := by
  induction h with
  | nil => exact calls_nil.2 rfl
  | cons h1 h2 _ ih => exact calls_cons.2 ⟨_, h1, calls_cons.2 ⟨_, h2, ih⟩⟩

theorem rounds_calls {s : Nat × Str} {n : Nat} {t t' : St F} (h : Rounds pop b time s n t t') :
    Calls pop (List.replicate n [.reset s.1, .compute s.1]).flatten t.w t'.w := by
  induction h with
  | zero => exact calls_nil.2 rfl
  | succ h1 _ ih =>
    cases h1 with
    | mk w1 w2 h1 h2 => exact calls_cons.2 ⟨_, h1, calls_cons.2 ⟨_, h2, ih⟩⟩

theorem loop_calls {l : List (Nat × Str)} {t t' : St F} (h : Loop pop b time l t t') :
    Calls pop (l.flatMap (fun s => (List.replicate b.nruns [.reset s.1, .compute s.1]).flatten ++ [.reset s.1])) t.w t'.w := by
  induction h with
  | nil => exact calls_nil.2 rfl
  | cons h1 h2 _ ih => exact calls_append.2 ⟨_, calls_append.2 ⟨_, rounds_calls h1, calls_cons.2 ⟨_, h2, calls_nil.2 rfl⟩⟩, ih⟩

/-- **C45**: the calls made on the solvers are exactly these: every solver is configured, then each one, in order, is run `nruns` times, each run preceded by a
`reset()`, and reset at the end. -/
theorem _root_.FMV.C45_calls (t t' : St F) (h : Runs pop b time t t') : Calls pop (benchCalls b) t.w t'.w := by
  obtain ⟨w, h1, h2⟩ := h
  exact calls_append.2 ⟨w, config_calls h1, loop_calls h2⟩

/-! ## The log -/

theorem row_line (id : Nat) (name t : Str) : ∃ l, row id name t = '\n' :: l ∧ LogLine id name t l := by
  refine ⟨_, rfl, formatID id, ?_, padded_number _ _, padded_length _ _, read_padded _ _⟩
  simp

/-- the log grows by these lines -/
def Logged (time : Nat → Str) (first : Nat) (names : List Str) (text : Str) : Prop :=
  ∃ lines : List Str, text = lines.flatMap (fun l => '\n' :: l) ∧ lines.length = names.length ∧
    ∀ i (h1 : i < names.length) (h2 : i < lines.length), LogLine (first + i) names[i] (time (first + i)) lines[i]

theorem Logged.nil (k : Nat) : Logged time k [] [] := ⟨[], rfl, rfl, by intro i h; simp at h⟩

theorem Logged.cons {k : Nat} {n : Str} {ns : List Str} {x : Str} (h : Logged time (k+1) ns x) : Logged time k (n :: ns) (row k n (time k) ++ x) := by
  obtain ⟨lines, rfl, h2, h3⟩ := h
  obtain ⟨l, h4, h5⟩ := row_line k n (time k)
  refine ⟨l :: lines, by rw [h4]; rfl, by simp [h2], ?_⟩
  intro i h1 h2
  cases i with
  | zero => simpa using h5
  | succ i =>
    have := h3 i (by simpa using h1) (by simpa using h2)
    rw [show k + 1 + i = k + (i + 1) by omega] at this
    simpa using this

theorem Logged.append {k : Nat} {ns ms : List Str} {x y : Str} (hx : Logged time k ns x) (hy : Logged time (k + ns.length) ms y) :
    Logged time k (ns ++ ms) (x ++ y) := by
  obtain ⟨l1, rfl, h2, h3⟩ := hx
  obtain ⟨l2, rfl, h5, h6⟩ := hy
  refine ⟨l1 ++ l2, by simp, by simp [h2, h5], ?_⟩
  intro i h1 h4
  by_cases hi : i < ns.length
  · rw [List.getElem_append_left hi, List.getElem_append_left (by omega)]
    exact h3 i hi (by omega)
  · rw [List.getElem_append_right (by omega), List.getElem_append_right (by omega)]
    have := h6 (i - ns.length) (by simp at h1; omega) (by simp at h4; omega)
    rw [show k + ns.length + (i - ns.length) = k + i by omega] at this
    simpa [h2] using this

theorem rounds_log {s : Nat × Str} {n : Nat} {t t' : St F} (h : Rounds pop b time s n t t') (hb : t.runID + n < 2^32) :
    t'.runID = t.runID + n ∧ ∃ x, t'.log = t.log ++ x ∧ Logged time (t.runID + 1) (List.replicate n s.2) x := by
  induction h with
  | zero => exact ⟨rfl, [], by simp, Logged.nil _⟩
  | @succ n t t1 t2 h1 _ ih =>
    cases h1 with
    | mk w1 w2 h1 h2 =>
      have hu : u32 (t.runID + 1) = t.runID + 1 := by unfold u32; rw [Nat.mod_eq_of_lt (by omega)]
      rw [hu] at ih
      obtain ⟨e1, x, e2, e3⟩ := ih (by dsimp only; omega)
      dsimp only at e1 e2 e3
      refine ⟨by rw [e1]; omega, _, by rw [e2, List.append_assoc], ?_⟩
      rw [List.replicate_succ]
      exact Logged.cons e3

theorem loop_log {l : List (Nat × Str)} {t t' : St F} (h : Loop pop b time l t t') (hb : t.runID + l.length * b.nruns < 2^32) :
    t'.runID = t.runID + l.length * b.nruns ∧ ∃ x, t'.log = t.log ++ x ∧ Logged time (t.runID + 1) (l.flatMap (fun s => List.replicate b.nruns s.2)) x := by
  induction h with
  | nil => exact ⟨by simp, [], by simp, Logged.nil _⟩
  | @cons s l t t1 t2 w h1 h2 _ ih =>
    rw [List.length_cons, Nat.add_mul, Nat.one_mul] at hb
    obtain ⟨e1, x, e2, e3⟩ := rounds_log h1 (by omega)
    obtain ⟨f1, y, f2, f3⟩ := ih (by dsimp only; omega)
    dsimp only at f1 f2 f3
    refine ⟨by rw [f1, e1, List.length_cons]; ring, x ++ y, by rw [f2, e2, List.append_assoc], ?_⟩
    rw [List.flatMap_cons]
    refine Logged.append e3 ?_
    rw [e1] at f3
    rw [List.length_replicate, show t.runID + 1 + b.nruns = t.runID + b.nruns + 1 by omega]
    exact f3

theorem intercalate_cons₂ (x : Str) (l : List Str) (hl : l ≠ []) : List.intercalate ['\t'] (x :: l) = x ++ '\t' :: List.intercalate ['\t'] l := by
  cases l with
  | nil => exact absurd rfl hl
  | cons y l => simp [List.intercalate, List.intersperse]

theorem intercalate_nums (l : List Nat) (last : Str) : List.intercalate ['\t'] (l.map decimal ++ [last]) = l.flatMap (fun p => decimal p ++ ['\t']) ++ last := by
  induction l with
  | nil => simp [List.intercalate]
  | cons n l ih =>
    rw [List.map_cons, List.cons_append, intercalate_cons₂ _ _ (by simp), ih]
    simp

theorem config_line (b : Bench) (sh : Shape) (hn : sh.ndims = sh.dims.length) : ConfigLine b sh.dims (b.header sh) := by
  refine ⟨(b.nruns :: sh.dims.length :: sh.dims ++ b.pts.length :: b.pts).map decimal, if b.goal = noGoal then "nan".toList else decimal b.goal, ?_, ?_, ?_⟩
  · rw [List.cons_append, intercalate_cons₂ _ _ (by simp), intercalate_nums]
    unfold Bench.header
    rw [hn]
    simp
  · rw [List.forall₂_map_left_iff]
    exact List.forall₂_same.2 (fun n _ => ⟨decimal_number n, read_decimal n⟩)
  · show if b.goal = noGoal then _ else _
    split
    · rfl
    · exact ⟨decimal_number _, read_decimal _⟩

theorem config_shape {l : List (Nat × Str)} {w w' : World F} (h : Config pop b l w w') : w'.grid.shape = w.grid.shape := by
  induction h with
  | nil => rfl
  | cons h1 h2 _ ih =>
    rw [ih]
    cases h1
    cases h2
    rw [put_grid, put_grid]
    unfold Grid.cleanGrid
    split <;> rfl

/-- **C45**: the log consists of the configuration (name, number of runs, the grid's dimensions, the initial points and the goal) and one line per run, with
consecutive run numbers (from 1 on for a new benchmark), written with at least four digits, the name of the solver and the measured time. -/
theorem _root_.FMV.C45_log (t t' : St F) (h : Runs pop b time t t') (dims : List Nat) (hsh : t.w.grid.shape = Shape.mk' dims)
    (hb : t.runID + b.solvers.length * b.nruns < 2^32) :
    ∃ (head : Str) (lines : List Str), t'.log = t.log ++ head ++ lines.flatMap (fun l => '\n' :: l) ∧ ConfigLine b dims head ∧
      lines.length = b.solvers.length * b.nruns ∧
      ∀ i name, (runNames b)[i]? = some name → ∃ l, lines[i]? = some l ∧ LogLine (t.runID + 1 + i) name (time (t.runID + 1 + i)) l := by
  obtain ⟨w, h1, h2⟩ := h
  obtain ⟨_, x, e2, lines, rfl, e4, e5⟩ := loop_log h2 hb
  refine ⟨_, lines, e2, ?_, ?_, ?_⟩
  · rw [config_shape h1, hsh]
    exact config_line b (Shape.mk' dims) rfl
  · rw [e4]
    simp [List.length_flatMap]
  · intro i name hi
    obtain ⟨hlt, he⟩ := List.getElem?_eq_some_iff.1 hi
    have hlt2 : i < lines.length := by rw [e4]; exact hlt
    refine ⟨lines[i], List.getElem?_eq_getElem hlt2, ?_⟩
    have := e5 i hlt hlt2
    rw [← he]
    exact this

/-- there is one run name per run -/
theorem _root_.FMV.C45_names (b : Bench) : (runNames b).length = b.solvers.length * b.nruns := by
  unfold runNames; simp [List.length_flatMap]

/-! ## The results -/

theorem runs_points {o o' : Obj F} {g g' : Grid F} (h : o.runs pop g g' o') : o'.pts = o.pts ∧ o'.goal = o.goal := by
  unfold Obj.runs at h
  split at h <;> · obtain ⟨_, _, _, _, _, rfl⟩ := h; exact ⟨rfl, rfl⟩

theorem setHeur_points (o : Obj F) (g : Grid F) (h : Heur) : (o.setHeuristics g h).pts = o.pts ∧ (o.setHeuristics g h).goal = o.goal := by
  unfold Obj.setHeuristics; split <;> exact ⟨rfl, rfl⟩

theorem setupKind_points (o : Obj F) (g : Grid F) : (o.setupKind g).pts = o.pts ∧ (o.setupKind g).goal = o.goal := by
  unfold Obj.setupKind
  split
  · dsimp only
    rw [← (setHeur_points o g o.heur).1]
    refine ⟨by split <;> rfl, ?_⟩
    rw [← (setHeur_points o g o.heur).2]
    split <;> simp only [(setHeur_points o g o.heur).2]
  all_goals exact ⟨rfl, rfl⟩

theorem setup_points {o o' : Obj F} {g g' : Grid F} (h : o.setup g = .ok (g', o')) : o'.pts = o.pts ∧ o'.goal = o.goal := by
  unfold Obj.setup at h
  split at h
  · injection h with h
    injection h with h1 h2
    rw [← h2]
    exact setupKind_points _ _
  · cases h

theorem reset_points (o : Obj F) (g : Grid F) : (o.reset g).2.pts = o.pts ∧ (o.reset g).2.goal = o.goal ∧ (o.reset g).2.ready = false := by
  unfold Obj.reset
  split <;> exact ⟨rfl, rfl, rfl⟩

theorem reset_kind (o : Obj F) (g : Grid F) : (o.reset g).2.kind = o.kind := by unfold Obj.reset; split <;> rfl

theorem env_points (o : Obj F) (g : Grid F) : (o.setEnvironment g).pts = o.pts ∧ (o.setEnvironment g).goal = o.goal := by
  unfold Obj.setEnvironment; split <;> exact ⟨rfl, rfl⟩

/-- every solver of the list has the benchmark's problem -/
def Has (b : Bench) (l : List (Nat × Str)) (w : World F) : Prop := ∀ s ∈ l, (w.obj s.1).pts = b.pts ∧ (w.obj s.1).goal = b.goal

theorem Has.put {l : List (Nat × Str)} {w : World F} (h : Has b l w) {k : Nat} {g : Grid F} {o : Obj F}
    (ho : (o.pts = (w.obj k).pts ∧ o.goal = (w.obj k).goal) ∨ (o.pts = b.pts ∧ o.goal = b.goal)) : Has b l (w.put k g o) := by
  intro s hs
  rw [put_obj]
  split
  · next he =>
    rcases ho with ho | ho
    · rw [ho.1, ho.2, ← he]; exact h s hs
    · exact ho
  · exact h s hs

theorem Has.does {l : List (Nat × Str)} {w w' : World F} (h : Has b l w) {c : Call} (hc : ∀ k p g, c = .setPoints k p g → p = b.pts ∧ g = b.goal)
    (hd : Does pop c w w') : Has b l w' := by
  cases hd with
  | setEnvironment w k => exact h.put (Or.inl (env_points _ _))
  | setPoints w k pts goal => obtain ⟨rfl, rfl⟩ := hc k pts goal rfl; exact h.put (Or.inr ⟨rfl, rfl⟩)
  | setup w k g o hs => exact h.put (Or.inl (setup_points hs))
  | computeReady w k g o h1 h2 => exact h.put (Or.inl (runs_points h2))
  | computeSetup w k g1 o1 g o h1 h2 h3 =>
    exact h.put (Or.inl ⟨(runs_points h3).1.trans (setup_points h2).1, (runs_points h3).2.trans (setup_points h2).2⟩)
  | reset w k => exact h.put (Or.inl ⟨(reset_points _ _).1, (reset_points _ _).2.1⟩)

/-- What a new solver computes on a new grid with the same map. -/
def Fresh (pop : FMM.St F → Nat → Prop) (b : Bench) (w0 : World F) (k : Nat) (G : Grid F) : Prop :=
  ∃ g, SameMap w0.grid g ∧ Result pop [.setEnvironment k, .setPoints k b.pts b.goal, .compute k] ⟨freshGrid g, w0.obj⟩ G

/-- the conditions under which runs do not disturb each other: no LSM, no DDQM, and heuristics only with a goal -/
structure Apart (b : Bench) (w0 : World F) : Prop where
  lsm : ∀ s ∈ b.solvers, ¬ IsLSM (w0.obj s.1)
  ddqm : ∀ s ∈ b.solvers, (w0.obj s.1).kind ≠ .ddqm
  star : ∀ s ∈ b.solvers, IsStar (w0.obj s.1) → b.goal ≠ noGoal

variable {w0 : World F}

theorem config_careful (h0 : NewWorld w0) : ∀ {l : List (Nat × Str)} {w w' : World F} (l0 : List (Nat × Str)), Config pop b l w w' → CarefulCalls false pop w0 w →
    Has b l0 w → CarefulCalls false pop w0 w' ∧ Has b (l0 ++ l) w' := by
  intro l w w' l0 h
  induction h generalizing l0 with
  | nil => intro hc hh; exact ⟨hc, by simpa using hh⟩
  | @cons s l w w1 w2 w3 h1 h2 h3 ih =>
    intro hc hh
    have c1 : CarefulCalls false pop w0 w1 := .snoc (.setEnvironment s.1) hc trivial h1
    have c2 : CarefulCalls false pop w0 w2 := .snoc (.setPoints s.1 b.pts b.goal) c1 trivial h2
    have k1 : Has b l0 w1 := hh.does (by intro k p g hcon; cases hcon) h1
    have k2 : Has b l0 w2 := k1.does (by intro k p g hcon; injection hcon with a1 a2 a3; exact ⟨a2.symm, a3.symm⟩) h2
    have k3 : Has b (l0 ++ [s]) w2 := by
      intro s' hs'
      rcases List.mem_append.1 hs' with hs' | hs'
      · exact k2 s' hs'
      · rw [List.mem_singleton.1 hs']
        cases h2 with
        | setPoints _ _ _ _ => rw [put_self]; exact ⟨rfl, rfl⟩
    have := ih (l0 ++ [s]) c2 k3
    simpa using this

theorem kind_of {lsm : Bool} {w : World F} (h0 : NewWorld w0) (hc : CarefulCalls lsm pop w0 w) (k : Nat) : (w.obj k).kind = (w0.obj k).kind :=
  ((LInv.calls h0 hc).obj k).kind

theorem setPoints_same (w : World F) (k : Nat) (p : List Nat) (g : Nat) (hp : (w.obj k).pts = p) (hg : (w.obj k).goal = g) :
    w.put k w.grid ((w.obj k).setPoints p g) = w := by
  subst hp hg
  unfold World.put
  congr 1
  funext i
  split
  · next h => subst h; rfl
  · rfl

theorem round_fresh (h0 : NewWorld w0) (A : Apart b w0) {s : Nat × Str} (hs : s ∈ b.solvers) {t t' : St F} (h : Round pop b time s t t')
    (hc : CarefulCalls false pop w0 t.w) (hh : Has b b.solvers t.w) :
    CarefulCalls false pop w0 t'.w ∧ Has b b.solvers t'.w ∧ Fresh pop b w0 s.1 t'.w.grid := by
  cases h with
  | mk w1 w2 h1 h2 =>
    have k1 : Has b b.solvers w1 := hh.does (by intro k p g hcon; cases hcon) h1
    have k2 : Has b b.solvers w2 := k1.does (by intro k p g hcon; cases hcon) h2
    have c1 : CarefulCalls false pop w0 w1 := .snoc _ hc (by
      rintro ⟨m, hm⟩
      rw [kind_of h0 hc] at hm
      exact absurd ⟨m, hm⟩ (A.lsm s hs)) h1
    have hready : (w1.obj s.1).ready = false := by cases h1; rw [put_self]; exact (reset_points _ _).2.2
    have c2 : CarefulCalls false pop w0 w2 := .snoc _ c1 (by
      refine ⟨Or.inl hready, ?_⟩
      rintro ⟨d, hh, e1, e2⟩ _
      rw [(k1 s hs).2]
      rw [kind_of h0 c1] at e1
      exact A.star s hs ⟨d, hh, e1, e2⟩) h2
    refine ⟨c2, k2, t.w.grid, (LInv.calls h0 hc).map, ?_⟩
    rw [← C39_reset_reusable_partial false pop w0 t.w h0 hc s.1 (by intro h; cases h) (A.ddqm s hs) b.pts b.goal w2.grid]
    refine ⟨w2, calls_cons.2 ⟨w1, h1, calls_cons.2 ⟨w1, ?_, calls_cons.2 ⟨w2, h2, calls_nil.2 rfl⟩⟩⟩, rfl⟩
    have := Does.setPoints (pop := pop) w1 s.1 b.pts b.goal
    rwa [setPoints_same w1 s.1 _ _ (k1 s hs).1 (k1 s hs).2] at this

/-- the grids saved by the runs with the numbers from `first` on -/
def Saved (pop : FMM.St F → Nat → Prop) (b : Bench) (w0 : World F) (first : Nat) (owners : List Nat) (fs : List (Str × Grid F)) : Prop :=
  fs.length = owners.length ∧ ∀ i k f, owners[i]? = some k → fs[i]? = some f → IsNumber f.1 ∧ readNat f.1 = first + i ∧ Fresh pop b w0 k f.2

theorem Saved.nil (k : Nat) : Saved pop b w0 k [] [] := ⟨rfl, by intro i k f h; simp at h⟩

theorem Saved.cons {n k : Nat} {o : List Nat} {f : Str × Grid F} {fs : List (Str × Grid F)} (h1 : IsNumber f.1) (h2 : readNat f.1 = n) (h3 : Fresh pop b w0 k f.2)
    (h : Saved pop b w0 (n+1) o fs) : Saved pop b w0 n (k :: o) (f :: fs) := by
  refine ⟨by simp [h.1], ?_⟩
  intro i k' f' e1 e2
  cases i with
  | zero =>
    rw [List.getElem?_cons_zero] at e1 e2
    injection e1 with e1; injection e2 with e2
    subst e1 e2
    exact ⟨h1, h2, h3⟩
  | succ i =>
    have := h.2 i k' f' (by simpa using e1) (by simpa using e2)
    exact ⟨this.1, by rw [this.2.1]; omega, this.2.2⟩

theorem Saved.append {n : Nat} {o o' : List Nat} {fs fs' : List (Str × Grid F)} (h : Saved pop b w0 n o fs) (h' : Saved pop b w0 (n + o.length) o' fs') :
    Saved pop b w0 n (o ++ o') (fs ++ fs') := by
  refine ⟨by simp [h.1, h'.1], ?_⟩
  intro i k f e1 e2
  by_cases hi : i < o.length
  · rw [List.getElem?_append_left hi] at e1
    rw [List.getElem?_append_left (by rw [h.1]; exact hi)] at e2
    exact h.2 i k f e1 e2
  · rw [List.getElem?_append_right (by omega)] at e1
    rw [List.getElem?_append_right (by rw [h.1]; omega), h.1] at e2
    have := h'.2 _ k f e1 e2
    exact ⟨this.1, by rw [this.2.1]; omega, this.2.2⟩

theorem rounds_fresh (h0 : NewWorld w0) (A : Apart b w0) (h2 : b.saveGrid = 2) {s : Nat × Str} (hs : s ∈ b.solvers) {n : Nat} {t t' : St F}
    (h : Rounds pop b time s n t t') (hb : t.runID + n < 2^32) (hc : CarefulCalls false pop w0 t.w) (hh : Has b b.solvers t.w) :
    CarefulCalls false pop w0 t'.w ∧ Has b b.solvers t'.w ∧ ∃ fs, t'.files = t.files ++ fs ∧ Saved pop b w0 (t.runID + 1) (List.replicate n s.1) fs := by
  induction h with
  | zero => exact ⟨hc, hh, [], by simp, Saved.nil _⟩
  | @succ n t t1 t2 h1 _ ih =>
    obtain ⟨c1, k1, f1⟩ := round_fresh h0 A hs h1 hc hh
    cases h1 with
    | mk w1 w2 h1 h3 =>
      have hu : u32 (t.runID + 1) = t.runID + 1 := by unfold u32; rw [Nat.mod_eq_of_lt (by omega)]
      rw [hu] at ih
      obtain ⟨c2, k2, fs, e, f2⟩ := ih (by dsimp only; omega) c1 k1
      dsimp only at e f1 f2
      rw [if_pos h2] at e
      exact ⟨c2, k2, _ :: fs, by rw [e, List.append_assoc]; rfl, by
        rw [List.replicate_succ]; exact Saved.cons (padded_number _ _) (read_padded _ _) f1 f2⟩

/-- **C45**: if grids are saved after every run, there is one per run, in the order of the runs, named after the run number, and each is a grid that a new solver of the same class computes
for the same problem on a new grid with the same map: the runs do not influence each other.  (Conditions as in C39: no LSM, no DDQM, heuristics only with a goal.) -/
theorem _root_.FMV.C45_results_partial (h0 : NewWorld w0) (A : Apart b w0) (h2 : b.saveGrid = 2) (t t' : St F) (ht : t.w = w0) (hf : t.files = [])
    (h : Runs pop b time t t') (hb : t.runID + b.solvers.length * b.nruns < 2^32) : Saved pop b w0 (t.runID + 1) (b.solvers.flatMap (fun s => List.replicate b.nruns s.1)) t'.files := by
  obtain ⟨w, hcfg, hl⟩ := h
  rw [ht] at hcfg
  obtain ⟨c0, k0⟩ := config_careful h0 [] hcfg (.nil _) (by intro s hs; simp at hs)
  rw [List.nil_append] at k0
  have key : ∀ (l : List (Nat × Str)) (t t' : St F), (∀ s ∈ l, s ∈ b.solvers) → Loop pop b time l t t' → t.runID + l.length * b.nruns < 2^32 →
      CarefulCalls false pop w0 t.w → Has b b.solvers t.w → ∃ fs, t'.files = t.files ++ fs ∧ Saved pop b w0 (t.runID + 1) (l.flatMap (fun s => List.replicate b.nruns s.1)) fs := by
    intro l t t' hsub hl
    induction hl with
    | nil => intro _ _ _; exact ⟨[], by simp, Saved.nil _⟩
    | @cons s l t t1 t2 w h3 h4 _ ih =>
      intro hb hc hh
      have hs := hsub s (by simp)
      rw [List.length_cons, Nat.add_mul, Nat.one_mul] at hb
      obtain ⟨c1, k1, fs, e, f⟩ := rounds_fresh h0 A h2 hs h3 (by omega) hc hh
      have hid := (rounds_log h3 (by omega)).1
      have c2 : CarefulCalls false pop w0 w := .snoc _ c1 (by
        rintro ⟨m, hm⟩
        rw [kind_of h0 c1] at hm
        exact absurd ⟨m, hm⟩ (A.lsm s hs)) h4
      have k2 : Has b b.solvers w := k1.does (by intro k p g hcon; cases hcon) h4
      obtain ⟨fs', e', f'⟩ := ih (fun s hs => hsub s (by simp [hs])) (by dsimp only; omega) c2 k2
      dsimp only at e' f'
      rw [if_neg (by omega), e, List.append_assoc] at e'
      refine ⟨fs ++ fs', e', ?_⟩
      rw [List.flatMap_cons]
      refine Saved.append f ?_
      rw [hid] at f'
      rw [List.length_replicate, show t.runID + 1 + b.nruns = t.runID + b.nruns + 1 by omega]
      exact f'
  obtain ⟨fs, e, f⟩ := key b.solvers _ t' (fun s hs => hs) hl hb c0 k0
  dsimp only at e
  rw [hf, List.nil_append] at e
  rw [e]; exact f

theorem rounds_last (h0 : NewWorld w0) (A : Apart b w0) (h2 : b.saveGrid ≠ 2) {s : Nat × Str} (hs : s ∈ b.solvers) {n : Nat} {t t' : St F}
    (h : Rounds pop b time s n t t') (hc : CarefulCalls false pop w0 t.w) (hh : Has b b.solvers t.w) :
    CarefulCalls false pop w0 t'.w ∧ Has b b.solvers t'.w ∧ t'.files = t.files ∧ (n ≠ 0 → Fresh pop b w0 s.1 t'.w.grid) := by
  induction h with
  | zero => exact ⟨hc, hh, rfl, fun h => absurd rfl h⟩
  | @succ n t t1 t2 h1 hr ih =>
    obtain ⟨c1, k1, f1⟩ := round_fresh h0 A hs h1 hc hh
    obtain ⟨c2, k2, e, f2⟩ := ih c1 k1
    refine ⟨c2, k2, ?_, fun _ => ?_⟩
    · rw [e]
      cases h1
      dsimp only
      rw [if_neg h2]
    · by_cases hn : n = 0
      · subst hn
        cases hr
        exact f1
      · exact f2 hn

/-- **C45**: if only the last grid of every solver is saved, there is one file per solver, in the order of the solvers, under the solver's name, and its grid is one
that a new solver of the same class computes for the same problem on a new grid with the same map (conditions as in `C45_results_partial`, and at least one run). -/
theorem _root_.FMV.C45_last_results_partial (h0 : NewWorld w0) (A : Apart b w0) (h1 : b.saveGrid = 1) (hn : b.nruns ≠ 0) (t t' : St F) (ht : t.w = w0)
    (hf : t.files = []) (h : Runs pop b time t t') :
    List.Forall₂ (fun (s : Nat × Str) (f : Str × Grid F) => f.1 = s.2 ∧ Fresh pop b w0 s.1 f.2) b.solvers t'.files := by
  obtain ⟨w, hcfg, hl⟩ := h
  rw [ht] at hcfg
  obtain ⟨c0, k0⟩ := config_careful h0 [] hcfg (.nil _) (by intro s hs; simp at hs)
  rw [List.nil_append] at k0
  have key : ∀ (l : List (Nat × Str)) (t t' : St F), (∀ s ∈ l, s ∈ b.solvers) → Loop pop b time l t t' →
      CarefulCalls false pop w0 t.w → Has b b.solvers t.w →
      ∃ fs, t'.files = t.files ++ fs ∧ List.Forall₂ (fun (s : Nat × Str) (f : Str × Grid F) => f.1 = s.2 ∧ Fresh pop b w0 s.1 f.2) l fs := by
    intro l t t' hsub hl
    induction hl with
    | nil => intro _ _; exact ⟨[], by simp, .nil⟩
    | @cons s l t t1 t2 w h3 h4 _ ih =>
      intro hc hh
      have hs := hsub s (by simp)
      obtain ⟨c1, k1, e, f⟩ := rounds_last h0 A (by omega) hs h3 hc hh
      have c2 : CarefulCalls false pop w0 w := .snoc _ c1 (by
        rintro ⟨m, hm⟩
        rw [kind_of h0 c1] at hm
        exact absurd ⟨m, hm⟩ (A.lsm s hs)) h4
      have k2 : Has b b.solvers w := k1.does (by intro k p g hcon; cases hcon) h4
      obtain ⟨fs', e', f'⟩ := ih (fun s hs => hsub s (by simp [hs])) c2 k2
      dsimp only at e' f'
      rw [if_pos h1, e, List.append_assoc] at e'
      exact ⟨_ :: fs', e', .cons ⟨rfl, f hn⟩ f'⟩
  obtain ⟨fs, e, f⟩ := key b.solvers _ t' (fun s hs => hs) hl c0 k0
  dsimp only at e
  rw [hf, List.nil_append] at e
  rw [e]; exact f

/-- **C45**: with any other setting no grid is saved. -/
theorem _root_.FMV.C45_no_grids (h1 : b.saveGrid ≠ 1) (h2 : b.saveGrid ≠ 2) (t t' : St F) (h : Runs pop b time t t') : t'.files = t.files := by
  obtain ⟨w, _, hl⟩ := h
  have hr : ∀ {s : Nat × Str} {n : Nat} {t t' : St F}, Rounds pop b time s n t t' → t'.files = t.files := by
    intro s n t t' h
    induction h with
    | zero => rfl
    | succ h1 _ ih =>
      rw [ih]; cases h1; dsimp only; rw [if_neg h2]
  have key : ∀ {l : List (Nat × Str)} {t t' : St F}, Loop pop b time l t t' → t'.files = t.files := by
    intro l t t' h
    induction h with
    | nil => rfl
    | cons h3 _ _ ih => rw [ih]; dsimp only; rw [if_neg h1, hr h3]
  rw [key hl]

/-! ## An LSM in the benchmark -/

theorem frozen_fmm {dims : List Nat} (hf : Fits dims (2^31+1)) {o o1 o' : Obj F} {g g1 G : Grid F} {d : Bool} {hh : Heur} (hk : o.kind = .fmm d hh)
    (hheap : o.heap = []) (hsh : g.shape = Shape.mk' dims) (hst : ∀ i, i < dims.prod → g.state i = .frozen) (hp : ∀ p ∈ o.pts, p < dims.prod)
    (h : o.setup g = .ok (g1, o1)) (hr : o1.runs pop g1 G o') (i : Nat) (hi : i ∉ o.pts) : G.value i = g.value i := by
  obtain ⟨oo, o1', o2, o3, o4, _⟩ := fmm_setup g (o := o) hk
  unfold Obj.setup at h
  split at h
  · rw [o1'] at h
    injection h with h
    injection h with h1 h2
    subst h1 h2
    unfold Obj.runs at hr
    rw [o2] at hr
    obtain ⟨n, s, r1, _, rfl, _⟩ := hr
    have i1 : (FMM.init (oo.fmmCfg (g.setClean false) d) (g.setClean false) oo.heap oo.pts).g.shape = Shape.mk' dims :=
      (FMM.init_sameMap _ _ _ _).shape.trans hsh
    have i2 : ∀ i, i < dims.prod → (FMM.init (oo.fmmCfg (g.setClean false) d) (g.setClean false) oo.heap oo.pts).g.state i = .frozen := by
      intro i hi; rw [FMM.init_state]; exact hst i hi
    have i3 : ∀ x ∈ (FMM.init (oo.fmmCfg (g.setClean false) d) (g.setClean false) oo.heap oo.pts).heap, x < dims.prod := by
      intro x hx
      rw [FMM.init_heap, o3, o4] at hx
      rw [show (({ o with ready := true } : Obj F)).heap = [] from hheap] at hx
      exact hp x (by simpa using hx)
    rw [(frozen_run hf r1 i1 i2 i3).2.2.2.1, FMM.init_value, o4, if_neg hi]
    rfl
  · cases h

/-- **C45**, what an LSM does to the solver after it: in a benchmark of an LSM followed by an FMM (any heap, any heuristic, any floating-point semantics), the FMM
run works on a grid in which every cell is frozen: it leaves every cell except the initial points at infinity, however the map looks like. -/
theorem _root_.FMV.C45_refuted_LSM (h0 : NewWorld w0) (l k : Nat) (nl nk : Str) (hlk : l ≠ k) (hl : IsLSM (w0.obj l)) (d : Bool)
    (hk : (w0.obj k).kind = .fmm d .none) (hs : b.solvers = [(l, nl), (k, nk)]) (h1 : b.nruns = 1) (h2 : b.saveGrid = 2) (dims : List Nat) (hf : Fits dims (2^31+1))
    (hsh : w0.grid.shape = Shape.mk' dims) (hp : ∀ p ∈ b.pts, p < dims.prod) (t t' : St F) (ht : t.w = w0) (hfiles : t.files = [])
    (h : Runs pop b time t t') : ∃ f1 f2, t'.files = [f1, f2] ∧ ∀ i, i < dims.prod → i ∉ b.pts → f2.2.value i = inf := by
  obtain ⟨w, hcfg, hloop⟩ := h
  rw [ht] at hcfg
  rw [hs] at hloop
  -- careful histories, with LSM resets allowed
  have hcfg' : CarefulCalls true pop w0 w ∧ Has b b.solvers w := by
    have key : ∀ {l : List (Nat × Str)} {w w' : World F} (l0 : List (Nat × Str)), Config pop b l w w' → CarefulCalls true pop w0 w →
        Has b l0 w → CarefulCalls true pop w0 w' ∧ Has b (l0 ++ l) w' := by
      intro l w w' l0 h
      induction h generalizing l0 with
      | nil => intro hc hh; exact ⟨hc, by simpa using hh⟩
      | @cons s l w w1 w2 w3 h1 h2 h3 ih =>
        intro hc hh
        have c1 : CarefulCalls true pop w0 w1 := .snoc (.setEnvironment s.1) hc trivial h1
        have c2 : CarefulCalls true pop w0 w2 := .snoc (.setPoints s.1 b.pts b.goal) c1 trivial h2
        have k1 : Has b l0 w1 := hh.does (by intro k p g hcon; cases hcon) h1
        have k2 : Has b l0 w2 := k1.does (by intro k p g hcon; injection hcon with a1 a2 a3; exact ⟨a2.symm, a3.symm⟩) h2
        have k3 : Has b (l0 ++ [s]) w2 := by
          intro s' hs'
          rcases List.mem_append.1 hs' with hs' | hs'
          · exact k2 s' hs'
          · rw [List.mem_singleton.1 hs']
            cases h2 with
            | setPoints _ _ _ _ => rw [put_self]; exact ⟨rfl, rfl⟩
        have := ih (l0 ++ [s]) c2 k3
        simpa using this
    have := key [] hcfg (.nil _) (by intro s hs; simp at hs)
    simpa using this
  obtain ⟨c0, k0⟩ := hcfg'
  cases hloop with
  | @cons _ _ _ t1 _ w3 hr1 hd1 hl1 =>
    rw [h1] at hr1
    cases hr1 with
    | succ hr1 hz =>
      cases hz
      cases hr1 with
      | mk w1 w2 a1 a2 =>
        dsimp only at a1 a2 hd1 hl1
        have c1 : CarefulCalls true pop w0 w1 := .snoc (.reset l) c0 (fun _ => rfl) a1
        have hready : (w1.obj l).ready = false := by cases a1; rw [put_self]; exact (reset_points _ _).2.2
        have c2 : CarefulCalls true pop w0 w2 := .snoc (.compute l) c1 (by
          refine ⟨Or.inl hready, ?_⟩
          rintro ⟨d', hh, e1, e2⟩ _
          rw [kind_of h0 c1] at e1
          obtain ⟨m, hm⟩ := hl
          rw [hm] at e1; cases e1) a2
        have k1 : Has b b.solvers w1 := k0.does (by intro k p g hcon; cases hcon) a1
        have k2 : Has b b.solvers w2 := k1.does (by intro k p g hcon; cases hcon) a2
        have k3 : Has b b.solvers w3 := k2.does (by intro k p g hcon; cases hcon) hd1
        have c3 : CarefulCalls true pop w0 w3 := .snoc (.reset l) c2 (fun _ => rfl) hd1
        -- the grid after the final reset of the LSM
        have hg3 : w3.grid = FSM.allState .frozen (freshGrid w2.grid) := by
          cases hd1
          rw [put_grid, reset_lsm (by rw [kind_of h0 c2]; exact hl)]
          rcases clean_fresh (LInv.calls h0 c2).cells with h | ⟨_, h⟩ <;> rw [h]
          exact allState_idem _ _
        cases hl1 with
        | @cons _ _ _ t4 _ w6 hr2 hd2 hl2 =>
          cases hl2
          rw [h1] at hr2
          cases hr2 with
          | succ hr2 hz2 =>
            cases hz2
            cases hr2 with
            | mk w4 w5 b1 b2 =>
              dsimp only at b1 b2
              refine ⟨_, _, by
                dsimp only
                rw [if_neg (by omega), if_pos h2, if_neg (by omega), if_pos h2, hfiles]
                rfl, ?_⟩
              intro i hi hip
              dsimp only
              have hkind : (w3.obj k).kind = .fmm d .none := by rw [kind_of h0 c3]; exact hk
              have hmap := (LInv.calls h0 c2).map
              have hg4 : w4.grid = w3.grid := by
                cases b1
                rw [put_grid, reset_other (by rintro ⟨m, hm⟩; rw [hkind] at hm; cases hm), hg3]
                rfl
              have ho4 : (w4.obj k).heap = [] ∧ (w4.obj k).kind = .fmm d .none ∧ (w4.obj k).ready = false := by
                cases b1
                rw [put_self]
                refine ⟨?_, by rw [reset_kind]; exact hkind, (reset_points _ _).2.2⟩
                unfold Obj.reset; dsimp only; rw [hkind]
              have k4 : Has b b.solvers w4 := k3.does (by intro k p g hcon; cases hcon) b1
              have hpts : (w4.obj k).pts = b.pts := (k4 (k, nk) (by rw [hs]; simp)).1
              have hshape : w4.grid.shape = Shape.mk' dims := by rw [hg4, hg3]; exact hmap.shape.trans hsh
              have hst : ∀ i, i < dims.prod → w4.grid.state i = .frozen := by
                intro i hi
                rw [hg4, hg3]
                show (if i < (freshGrid w2.grid).shape.ncells then { (freshGrid w2.grid).cells i with state := .frozen } else (freshGrid w2.grid).cells i : Cell F).state = _
                rw [if_pos]
                rw [show (freshGrid w2.grid).shape = Shape.mk' dims from hmap.shape.trans hsh, mk'_ncells (hf.mono (by norm_num))]
                exact hi
              have hval : w4.grid.value i = inf := by
                rw [hg4, hg3]
                show (if i < (freshGrid w2.grid).shape.ncells then { (freshGrid w2.grid).cells i with state := .frozen } else (freshGrid w2.grid).cells i : Cell F).value = _
                split <;> rfl
              cases b2 with
              | computeReady _ _ g o e1 e2 => rw [ho4.2.2] at e1; cases e1
              | computeSetup _ _ g1 o1 g o e1 e2 e3 =>
                rw [put_grid, frozen_fmm hf ho4.2.1 ho4.1 hshape hst (by rw [hpts]; exact hp) e2 e3 i (by rw [hpts]; exact hip), hval]

/-! ## A concrete benchmark -/

/-- non-vacuity: one FMM, one run, on a 2 x 2 grid with unit speed: the benchmark returns, logs one line with the number 0001 and saves one grid -/
theorem exRun : ∃ t' : St XR, Runs FMM.IsTop ⟨[(0, "FMM".toList)], [0], noGoal, 1, 2, "bm".toList⟩ (fun _ => "0".toList)
    ⟨⟨Grid.create [2,2] (XR.fin 1) (0,0), fun _ => Obj.new (.fmm false .none) ⟨0, fun _ => XR.fin 0, [], [], XR.fin 0, XR.fin 0⟩⟩, 0, [], []⟩ t' := by
  let g : Grid XR := Grid.create [2,2] (XR.fin 1) (0,0)
  let w0 : World XR := ⟨g, fun _ => Obj.new (.fmm false .none) ⟨0, fun _ => XR.fin 0, [], [], XR.fin 0, XR.fin 0⟩⟩
  have hfree : ∀ j, g.occ j = false := by
    intro j
    show decide ((1:ℝ) < XR.eps) = false
    unfold XR.eps; simp; norm_num
  have hpop : ∀ s : FMM.St XR, s.heap ≠ [] → ∃ x ∈ s.heap, FMM.IsTop s x := fun s hs => by
      obtain ⟨x, hx, hmin⟩ := FMM.exists_min XR.ltLaws (fun y => (s.g.cells y).total) s.heap hs
      exact ⟨x, hx, hx, hmin⟩
  have hcg : g.cleanGrid = g := rfl
  have d1 := Does.setEnvironment (pop := FMM.IsTop) w0 0
  have d2 := Does.setPoints (pop := FMM.IsTop) (w0.put 0 w0.grid.cleanGrid ((w0.obj 0).setEnvironment w0.grid.cleanGrid)) 0 [0] noGoal
  generalize hw2 : World.put (w0.put 0 w0.grid.cleanGrid ((w0.obj 0).setEnvironment w0.grid.cleanGrid)) 0 _ _ = w2 at d2
  have d3 := Does.reset (pop := FMM.IsTop) w2 0
  have hg2 : w2.grid = g := by rw [← hw2]; rfl
  have ho2 : w2.obj 0 = (w0.obj 0).setPoints [0] noGoal := by rw [← hw2, put_self]; rfl
  have hr : (w2.obj 0).reset w2.grid = (g, (w0.obj 0).setPoints [0] noGoal) := by rw [ho2, hg2]; rfl
  rw [hr] at d3
  have hsan : ((w0.obj 0).setPoints [0] noGoal).sanityChecks g = 0 := (sanity_iff _ _).2 ⟨rfl, by decide, fun p _ => hfree p, fun h => absurd rfl h, by decide⟩
  obtain ⟨oo, o1, o2, o3, o4, _⟩ := fmm_setup g (o := (w0.obj 0).setPoints [0] noGoal) (d := false) (hh := .none) rfl
  obtain ⟨G, o', h5⟩ := fmm_returns FMM.IsTop hpop (o := oo) o2 o3 (dims := [2,2]) (g := g.setClean false)
      ⟨⟨by simp, by simp, by norm_num⟩, rfl, by rw [o4]; intro p hp; have : p = 0 := by simpa [Obj.setPoints] using hp
                                                subst this; decide⟩
  have d4 := Does.computeSetup (pop := FMM.IsTop) (w2.put 0 g ((w0.obj 0).setPoints [0] noGoal)) 0 (g.setClean false) oo G o'
    (by rw [put_self]; rfl) (by rw [put_self, put_grid]; unfold Obj.setup; rw [if_pos hsan, o1]) h5
  exact ⟨_, w2, .cons d1 d2 (.nil _), .cons (.succ (.mk _ _ _ d3 d4) (.zero _)) (.reset _ 0) (.nil _)⟩

end FMV.Bench
