import Verif.Props.Own
import Verif.Spec.OwnCopy
/-!
# C85: copying solvers
-/
set_option linter.unusedVariables false
namespace FMV
open FMV.Own FMV.Spec.Own
namespace Own

/-! ## copies of solvers that own nothing -/

theorem plain_blocks {x : Sol} (h : x.kind = .plain) : blocks x = [x.self] := by unfold blocks; rw [h]

theorem InvM.copy {own : Nat → Thing} {S : Nat → Option SolL} {G : Nat → GridL} {w : World} (I : InvM own S G w) {n n' : Nat} {s : SolL} {x : Sol}
    (hn' : S n' = none) (hn : S n = some s) (hk : s.kind = .plain) (hx : w.sol n = some x) :
    ∃ own', InvM own' (put S n' (some { s with held := none })) G
      { w with sol := put w.sol n' (some { x with self := w.mem.alloc.1 }), mem := w.mem.alloc.2 } := by
  obtain ⟨x', k1, k2, k3, k4, k5⟩ := I.sol n s hn
  rw [hx] at k1; cases k1
  have hlive : ∀ b, b ∈ w.mem.alloc.2.live ↔ b = w.mem.next ∨ b ∈ w.mem.live := by intro b; simp [Mem.alloc]
  have hb : blocks { x with self := w.mem.alloc.1 } = [w.mem.next] := plain_blocks (k2.trans hk)
  refine ⟨fun b => if w.mem.next ≤ b then .sol n' else own b, ?_, ?_, ?_, ?_⟩
  · intro b hb
    show b < w.mem.next + 1
    rcases (hlive b).1 hb with rfl | h
    · omega
    · have := I.lt b h; omega
  · intro m t ht
    by_cases hm : m = n'
    · subst hm
      rw [put_same] at ht; cases ht
      refine ⟨{ x with self := w.mem.alloc.1 }, put_same _ _ _, k2, by rw [hb]; simp, ?_, k5⟩
      intro b hb'
      rw [hb] at hb'
      simp at hb'; subst hb'
      exact ⟨(hlive _).2 (Or.inl rfl), by rw [if_pos (le_refl _)]⟩
    · rw [put_ne _ _ hm] at ht
      obtain ⟨y, j1, j2, j3, j4, j5⟩ := I.sol m t ht
      refine ⟨y, (put_ne _ _ hm).trans j1, j2, j3, ?_, j5⟩
      intro b hb'
      have := I.lt b (j4 b hb').1
      exact ⟨(hlive b).2 (Or.inr (j4 b hb').1), by rw [if_neg (by omega)]; exact (j4 b hb').2⟩
  · intro g h hg
    obtain ⟨b, h1, h2, h3⟩ := I.grid g h hg
    have := I.lt b h2
    exact ⟨b, h1, (hlive b).2 (Or.inr h2), by rw [if_neg (by omega)]; exact h3⟩
  · intro b hb'
    rcases (hlive b).1 hb' with rfl | hb'
    · exact Or.inl ⟨n', _, _, put_same _ _ _, put_same _ _ _, by rw [hb]; simp⟩
    · rcases I.live b hb' with ⟨m, t, y, h1, h2, h3⟩ | h
      · have hm : m ≠ n' := by rintro rfl; rw [hn'] at h1; cases h1
        exact Or.inl ⟨m, t, y, (put_ne _ _ hm).trans h1, (put_ne _ _ hm).trans h2, h3⟩
      · exact Or.inr h

theorem self_mem (x : Sol) : x.self ∈ blocks x := by unfold blocks; cases x.kind <;> simp

theorem Inv.stepC {l l' : Ledger} {c : CCall} {w : World} (J : Inv l w) (h : OkC l c l') : ∃ w', execC w c = some w' ∧ Inv l' w' := by
  cases h with
  | call h => exact J.step h
  | copy hn' hn hk =>
    rename_i n' n s
    obtain ⟨⟨own, I⟩, B⟩ := J
    obtain ⟨x, k1, k2, k3, k4, k5⟩ := I.sol n s hn
    obtain ⟨own', I'⟩ := I.copy hn' hn hk k1
    have hu := use_some (k4 _ (self_mem x)).1
    refine ⟨_, by simp [execC, k1, copySol, hu], ⟨own', I'⟩, B.of rfl rfl ?_ (fun g hg => ⟨hg, fun h => ⟨h, rfl⟩⟩) (fun _ _ => Iff.rfl)⟩
    intro m b
    by_cases hm : m = n'
    · subst hm; simp [put_same, hn']
    · simp [put_ne _ _ hm]

theorem execAllC_append (cs : List CCall) (ds : List CCall) : ∀ w, execAllC (cs ++ ds) w = (execAllC cs w).bind (execAllC ds) := by
  induction cs with
  | nil => intro w; simp [execAllC]
  | cons d cs ih => intro w; simp only [List.cons_append, execAllC]; cases execC w d <;> simp [ih]

theorem carefulC_inv {cs : List CCall} {l : Ledger} (h : CarefulC cs l) : ∃ w, execAllC cs start = some w ∧ Inv l w := by
  induction h with
  | nil =>
    obtain ⟨w, h1, h2⟩ := careful_inv Careful.nil
    exact ⟨w, h1, h2⟩
  | snoc hcs hok ih =>
    obtain ⟨w, h1, h2⟩ := ih
    obtain ⟨w', h3, h4⟩ := h2.stepC hok
    exact ⟨w', by rw [execAllC_append, h1]; simp [execAllC, h3], h4⟩

/-- **C85**: solvers that own nothing (all but UFMM, FM2 and FM2*) can be copied freely: a history of calls and copies that respects the rules never uses or frees
memory that does not exist, and leaks nothing. -/
theorem _root_.FMV.C85_plain_copies_partial (cs : List CCall) (l : Ledger) (h : CarefulC cs l) :
    ∃ w, execAllC cs start = some w ∧ (l.empty → w.mem.live = ∅) := by
  obtain ⟨w, h1, ⟨own, I⟩, B⟩ := carefulC_inv h
  refine ⟨w, h1, fun he => ?_⟩
  rw [Finset.eq_empty_iff_forall_notMem]
  intro b hb
  rcases I.live b hb with ⟨n, s, x, k1, _⟩ | ⟨g, hh, k1, _⟩
  · rw [he.1 n] at k1; cases k1
  · exact he.2 g ⟨hh, k1⟩

/-! ## copies of solvers that own memory -/

/-- memory only moves forward: what was given out and is not there any more does not come back -/
def Later (m m' : Mem) : Prop := m.next ≤ m'.next ∧ ∀ b, b < m.next → b ∈ m'.live → b ∈ m.live

theorem Later.refl (m : Mem) : Later m m := ⟨le_refl _, fun _ _ h => h⟩
theorem Later.trans {a b c : Mem} (h : Later a b) (k : Later b c) : Later a c :=
  ⟨h.1.trans k.1, fun x hx hc => h.2 x hx (k.2 x (lt_of_lt_of_le hx h.1) hc)⟩
theorem later_alloc (m : Mem) : Later m m.alloc.2 := by
  refine ⟨Nat.le_succ _, fun b hb h => ?_⟩
  simp only [Mem.alloc, Finset.mem_insert] at h
  rcases h with rfl | h
  · omega
  · exact h
theorem later_use {m m' : Mem} {b : Nat} (h : m.use b = some m') : Later m m' := by
  unfold Mem.use at h; split at h
  · cases h; exact .refl m
  · cases h
theorem later_free {m m' : Mem} {b : Nat} (h : m.free b = some m') : Later m m' := by
  unfold Mem.free at h; split at h
  · cases h; exact ⟨le_refl _, fun x _ hx => Finset.mem_of_mem_erase hx⟩
  · cases h
theorem later_bind {α : Type} {f : Option Mem} {m : Mem} (hf : ∀ m', f = some m' → Later m m') {g : Mem → Option α} {r : α} (P : α → Mem)
    (hg : ∀ m' r, g m' = some r → Later m' (P r)) (h : f.bind g = some r) : Later m (P r) := by
  cases f with
  | none => cases h
  | some m' => exact (hf m' rfl).trans (hg m' r h)

theorem later_newSol (k : Kind) (m : Mem) : Later m (newSol k m).2 := by
  cases k
  · exact later_alloc m
  · exact (((later_alloc m).trans (later_alloc _)).trans (later_alloc _)).trans (later_alloc _)
  all_goals exact (later_alloc m).trans (later_alloc _)

theorem later_useSol {s : Sol} {m m' : Mem} (h : useSol s m = some m') : Later m m' := by
  refine later_bind (P := id) (fun _ h => later_use h) ?_ h
  intro m r h
  split at h
  · cases h; exact .refl m
  · exact later_bind (P := id) (fun _ h => later_use h) (fun m r h => later_bind (P := id) (fun _ h => later_use h) (fun m r h => later_use h) h) h
  · exact later_use h
  · exact later_use h

theorem later_clearSol {s : Sol} {m m' : Mem} (h : clearSol s m = some m') : Later m m' := by
  refine later_bind (P := id) (fun _ h => later_use h) ?_ h
  intro m r h
  split at h
  · cases h; exact .refl m
  · exact later_bind (P := id) (fun _ h => later_use h) (fun m r h => later_bind (P := id) (fun _ h => later_use h) (fun m r h =>
      later_bind (P := id) (fun _ h => later_free h) (fun m r h => later_bind (P := id) (fun _ h => later_free h) (fun m r h => later_free h) h) h) h) h
  · exact later_bind (P := id) (fun _ h => later_use h) (fun m r h => later_free h) h
  · exact later_bind (P := id) (fun _ h => later_use h) (fun m r h => later_free h) h

theorem later_deleteSol {s : Sol} {m m' : Mem} (h : deleteSol s m = some m') : Later m m' :=
  later_bind (P := id) (fun _ h => later_clearSol h) (fun m r h => later_free h) h

theorem setEnv_later {s : Sol} {g : Nat} {m : Mem} {r : Sol × Mem} (h : setEnv s g m = some r) :
    Later m r.2 ∧ r.1 = { s with env := some g } := by
  unfold setEnv Mem.use at h
  by_cases h1 : s.self ∈ m.live <;> by_cases h2 : s.q ∈ m.live <;> by_cases h3 : g ∈ m.live <;> cases hk : s.kind <;> simp [h1, h2, h3, hk] at h <;>
    (subst h; exact ⟨.refl m, by simp⟩)

theorem later_setPoints {s : Sol} {m m' : Mem} (h : setPoints s m = some m') : Later m m' := by
  refine later_bind (P := id) (fun _ h => later_use h) ?_ h
  intro m r h
  split at h
  · cases h
  · exact later_bind (P := id) (fun _ h => later_use h) (fun m r h => later_use h) h
  · cases h; exact .refl m

theorem later_runSol {s : Sol} {m m' : Mem} (h : runSol s m = some m') : Later m m' := by
  refine later_bind (P := id) (fun _ h => later_useSol h) ?_ h
  intro m r h
  split at h
  · cases h
  · exact later_use h

theorem later_deleteAll (sol : Nat → Option Sol) : ∀ (ns : List Nat) {m m' : Mem}, deleteAll sol ns m = some m' → Later m m'
  | [], m, m', h => by cases h; exact .refl m
  | n :: ns, m, m', h => by
    unfold deleteAll at h
    split at h
    · cases h
    · exact later_bind (P := id) (fun _ h => later_deleteSol h) (fun m r h => later_deleteAll sol ns h) h

theorem later_benClear {b : Ben} {sol : Nat → Option Sol} {m m' : Mem} (h : benClear b sol m = some m') : Later m m' := by
  refine later_bind (P := id) (fun _ h => later_deleteAll sol _ h) ?_ h
  intro m r h
  split at h
  · split at h
    · cases h
    · exact later_free h
  · cases h; exact .refl m

theorem later_runAll (sol : Nat → Option Sol) : ∀ (ns : List Nat) {m m' : Mem}, runAll sol ns m = some m' → Later m m'
  | [], m, m', h => by cases h; exact .refl m
  | n :: ns, m, m', h => by
    unfold runAll at h
    split at h
    · cases h
    · exact later_bind (P := id) (fun _ h => later_runSol h) (fun m r h => later_runAll sol ns h) h

/-- two values of a solver variable between which only `setEnvironment` has been called -/
def Same (x y : Option Sol) : Prop := x.map (fun s => { s with env := none }) = y.map (fun s => { s with env := none })

theorem same_put {f : Nat → Option Sol} {n k : Nat} {s : Sol} {g : Option Nat} (h : f n = some s) : Same (f k) (put f n (some { s with env := g }) k) := by
  unfold Same put
  split
  · next e => subst e; rw [h]; rfl
  · rfl

theorem configAll_later (g : Nat) : ∀ (ns : List Nat) {w w' : World}, configAll g ns w = some w' →
    Later w.mem w'.mem ∧ (∀ k, Same (w.sol k) (w'.sol k)) ∧ w'.ben = w.ben
  | [], w, w', h => by cases h; exact ⟨.refl _, fun _ => rfl, rfl⟩
  | n :: ns, w, w', h => by
    unfold configAll at h
    split at h
    · cases h
    · next s hs =>
      cases he : setEnv s g w.mem with
      | none => rw [he] at h; cases h
      | some r =>
        rw [he] at h
        obtain ⟨e1, e2⟩ := setEnv_later he
        cases hp : Own.setPoints r.1 r.2 with
        | none => simp [hp] at h
        | some m =>
          simp only [Option.bind_some, hp] at h
          obtain ⟨i1, i2, i3⟩ := configAll_later g ns h
          refine ⟨(e1.trans (later_setPoints hp)).trans i1, fun k => ?_, i3⟩
          have := i2 k
          rw [e2] at this
          exact (same_put hs).trans this

theorem addNew_later : ∀ (ss : List (Nat × Kind)) (w : World),
    Later w.mem (ss.foldl (fun w e => w.addNew e.1 e.2) w).mem ∧
    (∀ k, k ∉ ss.map Prod.fst → (ss.foldl (fun w e => w.addNew e.1 e.2) w).sol k = w.sol k)
  | [], w => ⟨.refl _, fun _ _ => rfl⟩
  | e :: ss, w => by
    obtain ⟨i1, i2⟩ := addNew_later ss (w.addNew e.1 e.2)
    refine ⟨(later_newSol e.2 w.mem).trans i1, fun k hk => ?_⟩
    simp only [List.map_cons, List.mem_cons, not_or] at hk
    exact (i2 k hk.2).trans (put_ne _ _ hk.1)

/-- no call brings memory back, and a solver variable keeps its pointers until it is assigned -/
theorem execC_later {w w' : World} {c : CCall} (h : execC w c = some w') :
    Later w.mem w'.mem ∧ ∀ k, ¬ assigns k c → Same (w.sol k) (w'.sol k) := by
  cases c with
  | copy n' n =>
    simp only [execC] at h
    cases hs : w.sol n with
    | none => rw [hs] at h; cases h
    | some s =>
      rw [hs] at h
      simp only [Option.bind_some, copySol, Mem.use] at h
      split at h
      · simp only [Option.bind_some, Option.some.injEq] at h
        subst h
        refine ⟨later_alloc _, fun k hk => ?_⟩
        show Same (w.sol k) (put _ _ _ k)
        rw [put_ne _ _ (fun e => hk e.symm)]
        rfl
      · cases h
  | call c =>
    cases c with
    | newGrid g => simp only [execC, exec, Option.some.injEq] at h; subst h; exact ⟨later_alloc _, fun _ _ => rfl⟩
    | deleteGrid g =>
      simp only [execC, exec] at h
      cases hs : w.grid g with
      | none => rw [hs] at h; cases h
      | some b =>
        cases hf : w.mem.free b with
        | none => simp [hs, hf] at h
        | some m => simp [hs, hf] at h; subst h; exact ⟨later_free hf, fun _ _ => rfl⟩
    | newSolver n k =>
      simp only [execC, exec, Option.some.injEq] at h; subst h
      refine ⟨later_newSol k w.mem, fun j hj => ?_⟩
      show Same (w.sol j) (put _ _ _ j)
      rw [put_ne _ _ (fun e => hj e.symm)]
      rfl
    | setEnvironment n g =>
      simp only [execC, exec] at h
      cases hs : w.sol n with
      | none => rw [hs] at h; cases h
      | some s =>
        cases hg : w.grid g with
        | none => simp [hs, hg] at h
        | some b =>
          cases he : setEnv s b w.mem with
          | none => simp [hs, hg, he] at h
          | some r =>
            simp [hs, hg, he] at h; subst h
            obtain ⟨e1, e2⟩ := setEnv_later he
            refine ⟨e1, fun k _ => ?_⟩
            show Same (w.sol k) (put w.sol n (some r.1) k)
            rw [e2]
            exact same_put hs
    | setPoints n =>
      simp only [execC, exec] at h
      cases hs : w.sol n with
      | none => rw [hs] at h; cases h
      | some s =>
        cases hf : Own.setPoints s w.mem with
        | none => simp [hs, hf] at h
        | some m => simp [hs, hf] at h; subst h; exact ⟨later_setPoints hf, fun _ _ => rfl⟩
    | run n =>
      simp only [execC, exec] at h
      cases hs : w.sol n with
      | none => rw [hs] at h; cases h
      | some s =>
        cases hf : runSol s w.mem with
        | none => simp [hs, hf] at h
        | some m => simp [hs, hf] at h; subst h; exact ⟨later_runSol hf, fun _ _ => rfl⟩
    | clear n =>
      simp only [execC, exec] at h
      cases hs : w.sol n with
      | none => rw [hs] at h; cases h
      | some s =>
        cases hf : clearSol s w.mem with
        | none => simp [hs, hf] at h
        | some m => simp [hs, hf] at h; subst h; exact ⟨later_clearSol hf, fun _ _ => rfl⟩
    | delete n =>
      simp only [execC, exec] at h
      cases hs : w.sol n with
      | none => rw [hs] at h; cases h
      | some s =>
        cases hf : deleteSol s w.mem with
        | none => simp [hs, hf] at h
        | some m => simp [hs, hf] at h; subst h; exact ⟨later_deleteSol hf, fun _ _ => rfl⟩
    | newBench b => simp only [execC, exec, Option.some.injEq] at h; subst h; exact ⟨.refl _, fun _ _ => rfl⟩
    | addSolver b n =>
      simp only [execC, exec] at h
      cases hs : w.ben b with
      | none => rw [hs] at h; cases h
      | some x => simp [hs] at h; subst h; exact ⟨.refl _, fun _ _ => rfl⟩
    | benchEnv b g =>
      simp only [execC, exec] at h
      cases hs : w.ben b with
      | none => rw [hs] at h; cases h
      | some x =>
        cases hg : w.grid g with
        | none => simp [hs, hg] at h
        | some p => simp [hs, hg] at h; subst h; exact ⟨.refl _, fun _ _ => rfl⟩
    | configure b ss g =>
      simp only [execC, exec] at h
      cases hs : w.ben b with
      | none => rw [hs] at h; cases h
      | some x =>
        simp [hs] at h; subst h
        obtain ⟨i1, i2⟩ := addNew_later ss w
        refine ⟨i1.trans (later_alloc _), fun k hk => ?_⟩
        exact congrArg _ (i2 k hk).symm
    | benchRun b =>
      simp only [execC, exec] at h
      cases hs : w.ben b with
      | none => rw [hs] at h; cases h
      | some x =>
        cases hp : x.env with
        | none => simp [hs, hp] at h
        | some p =>
          cases hc : configAll p x.solvers w with
          | none => simp [hs, hp, hc] at h
          | some w1 =>
            simp only [hs, hp, hc, Option.bind_some] at h
            obtain ⟨i1, i2, i3⟩ := configAll_later p x.solvers hc
            cases hu : w1.mem.use p with
            | none => simp [hu] at h
            | some m =>
              cases hr : runAll w1.sol x.solvers m with
              | none => simp [hu, hr] at h
              | some m' =>
                simp [hu, hr] at h; subst h
                exact ⟨(i1.trans (later_use hu)).trans (later_runAll _ _ hr), fun k _ => i2 k⟩
    | benchClear b =>
      simp only [execC, exec] at h
      cases hs : w.ben b with
      | none => rw [hs] at h; cases h
      | some x =>
        cases hf : benClear x w.sol w.mem with
        | none => simp [hs, hf] at h
        | some m => simp [hs, hf] at h; subst h; exact ⟨later_benClear hf, fun _ _ => rfl⟩
    | benchDestroy b =>
      simp only [execC, exec] at h
      cases hs : w.ben b with
      | none => rw [hs] at h; cases h
      | some x =>
        cases hf : benClear x w.sol w.mem with
        | none => simp [hs, hf] at h
        | some m => simp [hs, hf] at h; subst h; exact ⟨later_benClear hf, fun _ _ => rfl⟩

theorem execAllC_later : ∀ (cs : List CCall) {w w' : World} {k : Nat}, execAllC cs w = some w' → (∀ c ∈ cs, ¬ assigns k c) →
    Later w.mem w'.mem ∧ Same (w.sol k) (w'.sol k)
  | [], w, w', k, h, _ => by cases h; exact ⟨.refl _, rfl⟩
  | c :: cs, w, w', k, h, hc => by
    unfold execAllC at h
    cases he : execC w c with
    | none => rw [he] at h; cases h
    | some w1 =>
      rw [he] at h
      obtain ⟨e1, e2⟩ := execC_later he
      obtain ⟨i1, i2⟩ := execAllC_later cs h (fun d hd => hc d (List.mem_cons_of_mem _ hd))
      exact ⟨e1.trans i1, (e2 k (hc c List.mem_cons_self)).trans i2⟩

/-- a solver whose queue or inner solver is gone cannot be used, cleared or deleted -/
theorem gone_bad {s : Sol} {m : Mem} (hk : s.kind ≠ .plain) (hq : s.q ∉ m.live) : useSol s m = none ∧ clearSol s m = none := by
  have hu : m.use s.q = none := by simp [Mem.use, hq]
  unfold useSol clearSol
  by_cases hs : s.self ∈ m.live
  · rw [use_some hs]
    cases h : s.kind <;> simp [hu]
    exact hk h
  · simp [Mem.use, hs]

/-- **C85** is false for UFMM, FM2 and FM2*, which own memory through a plain pointer: after `S b(a)` and the destruction of either of the two objects, whatever the program does
next, the other one cannot be used or destroyed without undefined behaviour.  So no program that copies such a solver and destroys both objects is correct. -/
theorem _root_.FMV.C85_refuted (cs : List CCall) (l : Ledger) (h : CarefulC cs l) (n n' : Nat) (s : SolL) (hn : l.sol n = some s) (hk : s.kind ≠ .plain)
    (hne : n' ≠ n) (first second : Nat) (hfs : (first = n ∧ second = n') ∨ (first = n' ∧ second = n)) (more : List CCall) (hm : ∀ c ∈ more, ¬ assigns second c)
    (last : Call) (hl : last = .run second ∨ last = .clear second ∨ last = .delete second) :
    (∃ w, execAllC (cs ++ [.copy n' n, .call (.delete first)]) start = some w) ∧
    execAllC (cs ++ [.copy n' n, .call (.delete first)] ++ more ++ [.call last]) start = none := by
  obtain ⟨w, h1, ⟨own, I⟩, B⟩ := carefulC_inv h
  obtain ⟨x, k1, k2, k3, k4, k5⟩ := I.sol n s hn
  have hx : x.kind ≠ .plain := by rw [k2]; exact hk
  have hu := use_some (k4 _ (self_mem x)).1
  have hself : x.self < w.mem.next := I.lt _ (k4 _ (self_mem x)).1
  have hqb : x.q ∈ blocks x := by
    unfold blocks
    cases hh : x.kind
    · exact absurd hh hx
    all_goals simp
  have hqlt := I.lt _ (k4 _ hqb).1
  -- the world after the copy
  let w1 : World := { w with sol := put w.sol n' (some { x with self := w.mem.alloc.1 }), mem := w.mem.alloc.2 }
  have e1 : execC w (.copy n' n) = some w1 := by simp [execC, k1, copySol, hu, w1]
  have l1 : ∀ b, b ∈ w1.mem.live ↔ b = w.mem.next ∨ b ∈ w.mem.live := by intro b; simp [w1, Mem.alloc]
  have sn : w1.sol n = some x := (put_ne _ _ hne.symm).trans k1
  have sn' : w1.sol n' = some { x with self := w.mem.next } := put_same _ _ _
  -- both objects have the same queue
  obtain ⟨xf, hxf, xfk, xfq, xfl, xfn⟩ : ∃ xf, w1.sol first = some xf ∧ xf.kind = x.kind ∧ xf.q = x.q ∧ (∀ b ∈ blocks xf, b ∈ w1.mem.live) ∧ (blocks xf).Nodup := by
    rcases hfs with ⟨rfl, _⟩ | ⟨rfl, _⟩
    · exact ⟨x, sn, rfl, rfl, fun b hb => (l1 b).2 (Or.inr (k4 b hb).1), k3⟩
    · refine ⟨_, sn', rfl, rfl, ?_, ?_⟩
      · intro b hb
        unfold blocks at hb k4
        cases hh : x.kind <;> rw [hh] at k4 <;> simp only [hh] at hb <;> simp at hb k4 <;> rw [l1] <;> (try exact Or.inl hb)
        · rcases hb with hb | rfl | rfl | rfl
          · exact Or.inl hb
          · exact Or.inr k4.2.1.1
          · exact Or.inr k4.2.2.1.1
          · exact Or.inr k4.2.2.2.1
        all_goals
          rcases hb with hb | rfl
          · exact Or.inl hb
          · exact Or.inr k4.2.1
      · have hlt : ∀ b ∈ blocks x, b ≠ w.mem.next := fun b hb e => absurd (I.lt b (k4 b hb).1) (by omega)
        unfold blocks at hlt k3 ⊢
        cases hh : x.kind <;> rw [hh] at k3 hlt <;> simp only [hh] <;> simp at k3 hlt ⊢
        · exact ⟨⟨fun e => hlt.2.1 e.symm, fun e => hlt.2.2.1 e.symm, fun e => hlt.2.2.2 e.symm⟩, k3.2⟩
        all_goals exact fun e => hlt.2 e.symm
  obtain ⟨xs, hxs, xsk, xsq⟩ : ∃ xs, w1.sol second = some xs ∧ xs.kind = x.kind ∧ xs.q = x.q := by
    rcases hfs with ⟨_, rfl⟩ | ⟨_, rfl⟩
    · exact ⟨_, sn', rfl, rfl⟩
    · exact ⟨x, sn, rfl, rfl⟩
  obtain ⟨m2, d1, d2, d3⟩ := deleteSol_some xfl xfn
  have e2 : execC w1 (.call (.delete first)) = some { w1 with mem := m2 } := by simp [execC, exec, hxf, d1]
  have e12 : execAllC (cs ++ [.copy n' n, .call (.delete first)]) start = some { w1 with mem := m2 } := by
    rw [execAllC_append, h1]; simp [execAllC, e1, e2]
  refine ⟨⟨_, e12⟩, ?_⟩
  rw [execAllC_append, execAllC_append, e12]
  simp only [Option.bind_some]
  cases hmore : execAllC more { w1 with mem := m2 } with
  | none => rfl
  | some w3 =>
    obtain ⟨i1, i2⟩ := execAllC_later more hmore hm
    have hq3 : x.q ∉ w3.mem.live := by
      intro hc
      have hlt : x.q < m2.next := by
        rw [d2]; show x.q < w.mem.next + 1; omega
      have := (d3 _).1 (i1.2 _ hlt hc)
      refine this.2 ?_
      rw [← xfq]
      unfold blocks
      cases hh : xf.kind
      · exact absurd (xfk.symm.trans hh) hx
      all_goals simp
    have i2' : Same (some xs) (w3.sol second) := by rw [← hxs]; exact i2
    cases h3 : w3.sol second with
    | none => rw [h3] at i2'; cases i2'
    | some y =>
      rw [h3] at i2'
      simp only [Same, Option.map_some, Option.some.injEq, Sol.mk.injEq] at i2'
      have yk : y.kind ≠ .plain := by rw [← i2'.1, xsk]; exact hx
      have yq : y.q ∉ w3.mem.live := by rw [← i2'.2.2.1, xsq]; exact hq3
      obtain ⟨b1, b2⟩ := gone_bad yk yq
      rcases hl with rfl | rfl | rfl
      · simp [execAllC, execC, exec, h3, runSol, b1]
      · simp [execAllC, execC, exec, h3, b2]
      · simp [execAllC, execC, exec, h3, deleteSol, b2]

/-- non-vacuity: two plain solvers, one a copy of the other, both run and destroyed; and a UFMM that can be copied -/
example : ∃ l, CarefulC ([.call (.newGrid 0), .call (.newSolver 0 .plain), .call (.setEnvironment 0 0), .copy 1 0, .call (.run 1), .call (.delete 0), .call (.run 1),
      .call (.newSolver 2 .ufmm)]) l ∧ l.sol 2 = some ⟨.ufmm, none, none⟩ := by
  have h0 := CarefulC.nil
  have h1 := h0.snoc (OkC.call (Ok.newGrid (g := 0) rfl))
  have h2 := h1.snoc (OkC.call (Ok.newSolver (n := 0) (k := .plain) rfl))
  have h3 := h2.snoc (OkC.call (Ok.setEnvironment (n := 0) (g := 0) rfl ⟨_, rfl⟩))
  have h4 := h3.snoc (OkC.copy (n' := 1) (n := 0) rfl rfl rfl)
  have h5 := h4.snoc (OkC.call (Ok.run (n := 1) (g := 0) rfl rfl ⟨_, rfl⟩))
  have h6 := h5.snoc (OkC.call (Ok.delete (n := 0) rfl rfl))
  have h7 := h6.snoc (OkC.call (Ok.run (n := 1) (g := 0) rfl rfl ⟨_, rfl⟩))
  have h8 := h7.snoc (OkC.call (Ok.newSolver (n := 2) (k := .ufmm) rfl))
  exact ⟨_, h8, rfl⟩

end Own
end FMV
