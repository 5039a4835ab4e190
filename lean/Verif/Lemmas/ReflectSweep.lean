import Verif.Lemmas.Reflect
import Verif.Lemmas.Terminate
import Verif.Model.FSM
import Verif.Model.DDQM
import Verif.Model.FIM
/-! Runs of FSM, LSM, DDQM and FIM over `XQ` are runs over `XR` if all square roots taken are exact. -/
namespace FMV
open XQ

theorem XQ.isNaN_hom (x : XQ) : Arith.isNaN x.toXR = Arith.isNaN x := by cases x <;> rfl

theorem XQ.better_hom (a b : XQ) : Arith.better a.toXR b.toXR = Arith.better a b := by
  unfold Arith.better
  rw [← toXR_margin]
  show XR.lt (XR.add _ _) _ = _
  rw [← toXR_add, toXR_lt]; rfl

theorem XQ.le_hom (a b : XQ) : Arith.le a.toXR b.toXR = Arith.le a b := by
  show XR.le _ _ = XQ.le _ _
  cases a <;> cases b <;> simp [XQ.toXR, XR.le, XQ.le]

theorem XQ.abs_hom (a : XQ) : Arith.abs a.toXR = (Arith.abs a).toXR := by
  show XR.abs _ = (XQ.abs _).toXR
  cases a with
  | fin r =>
    simp only [XQ.toXR, XR.abs, XQ.abs]
    congr 1
    by_cases h : r < 0
    · rw [if_pos h, abs_of_neg (by exact_mod_cast h)]; push_cast; rfl
    · rw [if_neg h, abs_of_nonneg (by exact_mod_cast not_lt.1 h)]
  | _ => rfl

theorem zero_hom : (Arith.zero : XQ).toXR = Arith.zero := toXR_zero

namespace FSM

/-- the state with its numbers in `XR` -/
noncomputable def St.toXR (s : St XQ) : St XR := ⟨s.g.toXR, s.keep, s.stop, s.sweeps, s.incs⟩

theorem solveFSM_hom (goal : Nat) (s : St XQ) (i : Nat) (hok : okEik s.g i = true) :
    solveFSM goal eikS s.toXR i = (solveFSM goal eikS s i).toXR := by
  have he : eikS s.toXR.g i = ((eikS s.g i).1.toXR, (eikS s.g i).2) := eikS_hom _ _ hok
  have hb : Arith.better (eikS s.g i).1.toXR (s.toXR.g.value i) = Arith.better (eikS s.g i).1 (s.g.value i) := better_hom _ _
  unfold solveFSM
  rw [he]
  dsimp only
  rw [hb, isNaN_hom, isInf_hom]
  split
  · unfold St.toXR; dsimp only; rw [← Grid.toXR_setScratch, ← Grid.toXR_setValue]
  · split <;> rfl

theorem openNbrs_hom (t : XQ) (l : List Nat) : ∀ g : Grid XQ,
    l.foldl (fun g n => if Arith.better t.toXR (g.value n) then g.setState n .opn else g) g.toXR =
    (l.foldl (fun g n => if Arith.better t (g.value n) then g.setState n .opn else g) g).toXR := by
  induction l with
  | nil => intro g; rfl
  | cons n l ih =>
    intro g
    rw [List.foldl_cons, List.foldl_cons, ← ih]
    congr 1
    rw [Grid.toXR_value, better_hom]
    split
    · rw [Grid.toXR_setState]
    · rfl

theorem solveLSM_hom (goal : Nat) (s : St XQ) (i : Nat) (hok : okEik s.g i = true) :
    solveLSM goal eikS s.toXR i = (solveLSM goal eikS s i).toXR := by
  have he : eikS s.toXR.g i = ((eikS s.g i).1.toXR, (eikS s.g i).2) := eikS_hom _ _ hok
  have hb : Arith.better (eikS s.g i).1.toXR (s.toXR.g.value i) = Arith.better (eikS s.g i).1 (s.g.value i) := better_hom _ _
  unfold solveLSM
  show (if s.g.state i = .opn then _ else _) = _
  by_cases h1 : s.g.state i = .opn
  · rw [if_pos h1, if_pos h1, he]
    dsimp only
    rw [hb, isNaN_hom, isInf_hom]
    by_cases h2 : Arith.better (eikS s.g i).1 (s.g.value i) = true
    · rw [if_pos h2, if_pos h2]
      dsimp only
      have : ((s.toXR.g.setScratch (eikS s.g i).2).setValue i (eikS s.g i).1.toXR) = ((s.g.setScratch (eikS s.g i).2).setValue i (eikS s.g i).1).toXR := by
        rw [Grid.toXR_setValue]; rfl
      rw [this, show s.toXR.g.shape.nbrs i = s.g.shape.nbrs i from rfl, openNbrs_hom]
      unfold St.toXR
      dsimp only
      rw [Grid.toXR_setState]
    · rw [if_neg h2, if_neg h2]
      split
      · unfold St.toXR; dsimp only; rw [Grid.toXR_setState]; rfl
      · unfold St.toXR; dsimp only; rw [Grid.toXR_setState]; rfl
  · rw [if_neg h1, if_neg h1]

/-- both solvers, `lsm` tells which -/
def solver {F : Type} [Arith F] (lsm : Bool) (goal : Nat) : St F → Nat → St F := if lsm then solveLSM goal eikS else solveFSM goal eikS

def okVisits (lsm : Bool) (goal : Nat) : List Nat → St XQ → Bool
  | [], _ => true
  | i :: l, s => (s.g.occ i || okEik s.g i) && okVisits lsm goal l (visit (solver lsm goal) s i)

theorem visits_hom (lsm : Bool) (goal : Nat) (l : List Nat) : ∀ s : St XQ, okVisits lsm goal l s = true →
    l.foldl (visit (solver lsm goal)) s.toXR = (l.foldl (visit (solver lsm goal)) s).toXR := by
  induction l with
  | nil => intro s _; rfl
  | cons i l ih =>
    intro s hok
    unfold okVisits at hok
    rw [Bool.and_eq_true] at hok
    rw [List.foldl_cons, List.foldl_cons, ← ih _ hok.2]
    congr 1
    unfold visit
    show (if s.g.toXR.occ i = true then _ else _) = _
    rw [Grid.toXR_occ]
    by_cases ho : s.g.occ i = true
    · rw [if_pos ho, if_pos ho]
    · rw [if_neg ho, if_neg ho]
      have h : okEik s.g i = true := by simpa [ho] using hok.1
      unfold solver
      cases lsm
      · exact solveFSM_hom goal s i h
      · exact solveLSM_hom goal s i h

/-- at most `n` sweeps -/
def run {F : Type} [Arith F] (lsm : Bool) (m goal : Nat) : Nat → St F → St F
  | 0, s => s
  | n + 1, s => if s.keep = true ∧ s.stop = false ∧ s.sweeps < m then run lsm m goal n (sweep (solver lsm goal) s) else s

def okSweep (lsm : Bool) (goal : Nat) (s : St XQ) : Bool :=
  okVisits lsm goal (sweepOrder s.g.shape.dims (bump s.incs)) { s with keep := false, incs := bump s.incs, sweeps := u32 (s.sweeps + 1) }

def okRun (lsm : Bool) (m goal : Nat) : Nat → St XQ → Bool
  | 0, _ => true
  | n + 1, s => if s.keep = true ∧ s.stop = false ∧ s.sweeps < m then okSweep lsm goal s && okRun lsm m goal n (sweep (solver lsm goal) s) else true

theorem run_hom (lsm : Bool) (m goal n : Nat) : ∀ s : St XQ, okRun lsm m goal n s = true → run lsm m goal n s.toXR = (run lsm m goal n s).toXR := by
  induction n with
  | zero => intro s _; rfl
  | succ n ih =>
    intro s hok
    unfold okRun at hok
    unfold run
    by_cases h : s.keep = true ∧ s.stop = false ∧ s.sweeps < m
    · rw [if_pos h, if_pos (show s.toXR.keep = true ∧ s.toXR.stop = false ∧ s.toXR.sweeps < m from h)]
      rw [if_pos h, Bool.and_eq_true] at hok
      rw [← ih _ hok.2]
      congr 1
      exact visits_hom lsm goal _ _ hok.1
    · rw [if_neg h, if_neg (show ¬ (s.toXR.keep = true ∧ s.toXR.stop = false ∧ s.toXR.sweeps < m) from h)]

theorem run_steps {F : Type} [Arith F] (lsm : Bool) (m goal n : Nat) : ∀ s : St F, ∃ k, FMM.Steps (Step m (solver lsm goal)) k s (run lsm m goal n s) := by
  induction n with
  | zero => intro s; exact ⟨0, .refl _⟩
  | succ n ih =>
    intro s
    unfold run
    split
    · next h =>
      obtain ⟨k, hk⟩ := ih (sweep (solver lsm goal) s)
      exact ⟨k + 1, FMV.Steps.head ⟨fun hd => hd h, rfl⟩ hk⟩
    · exact ⟨0, .refl _⟩

theorem initFSM_hom (g : Grid XQ) (pts : List Nat) (sw : Nat) (incs : List Int) :
    initFSM g.toXR pts sw incs = (initFSM g pts sw incs).toXR := by
  unfold initFSM St.toXR
  dsimp only
  congr 1
  induction pts generalizing g with
  | nil => rfl
  | cons i l ih => rw [List.foldl_cons, List.foldl_cons, ← ih, Grid.toXR_setValue, zero_hom]

theorem allState_hom (st : FMState) (g : Grid XQ) : allState st g.toXR = (allState st g).toXR := by
  unfold allState Grid.toXR
  congr 1
  funext i
  dsimp only
  split <;> rfl

theorem initLSM_hom (g : Grid XQ) (pts : List Nat) (sw : Nat) (incs : List Int) :
    initLSM g.toXR pts sw incs = (initLSM g pts sw incs).toXR := by
  unfold initLSM St.toXR
  dsimp only
  congr 1
  rw [allState_hom]
  generalize allState .frozen g = g
  induction pts generalizing g with
  | nil => rfl
  | cons i l ih =>
    rw [List.foldl_cons, List.foldl_cons, ← ih]
    congr 1
    unfold initPointLSM
    rw [show g.toXR.shape.nbrs i = g.shape.nbrs i from rfl, ← zero_hom, ← Grid.toXR_setValue]
    generalize g.shape.nbrs i = ns
    generalize g.setValue i Arith.zero = g
    induction ns generalizing g with
    | nil => rfl
    | cons n ns ih => rw [List.foldl_cons, List.foldl_cons, ← Grid.toXR_setState, ih]

end FSM

namespace DDQM

/-- the state with its numbers in `XR` -/
noncomputable def St.toXR (s : St XQ) : St XR := ⟨s.g.toXR, s.q0, s.q1, s.lq, s.stop, s.c0, s.c1, s.threshold.toXR, s.thStep.toXR, s.inner⟩

theorem setLow_hom (s : St XQ) (q : List Nat) : s.toXR.setLow q = (s.setLow q).toXR := by
  unfold St.setLow St.toXR; dsimp only; split <;> rfl
theorem setHigh_hom (s : St XQ) (q : List Nat) : s.toXR.setHigh q = (s.setHigh q).toXR := by
  unfold St.setHigh St.toXR; dsimp only; split <;> rfl
theorem low_hom (s : St XQ) : s.toXR.low = s.low := rfl
theorem high_hom (s : St XQ) : s.toXR.high = s.high := rfl

theorem openNbr_hom (t : XQ) (s : St XQ) (n : Nat) : openNbr t.toXR s.toXR n = (openNbr t s n).toXR := by
  unfold openNbr
  show (if s.g.state n = .frozen then if Arith.better t.toXR (s.g.value n).toXR = true then _ else _ else _) = _
  rw [better_hom]
  by_cases h1 : s.g.state n = .frozen
  · rw [if_pos h1, if_pos h1]
    by_cases h2 : Arith.better t (s.g.value n) = true
    · rw [if_pos h2, if_pos h2]
      have e : ({ s.toXR with g := s.toXR.g.setState n .opn, c1 := (s.toXR.c1 + 1) % 2^64 } : St XR) =
          St.toXR { s with g := s.g.setState n .opn, c1 := (s.c1 + 1) % 2^64 } := by
        unfold St.toXR; dsimp only; rw [Grid.toXR_setState]
      dsimp only
      rw [e]
      show (if Arith.better t.toXR s.threshold.toXR = true then _ else _) = _
      rw [better_hom]
      by_cases h3 : Arith.better t s.threshold = true
      · rw [if_pos h3, if_pos h3, low_hom, setLow_hom]; rfl
      · rw [if_neg h3, if_neg h3, high_hom, setHigh_hom]
    · rw [if_neg h2, if_neg h2]
  · rw [if_neg h1, if_neg h1]

theorem openNbrs_hom (t : XQ) (l : List Nat) : ∀ s : St XQ, l.foldl (openNbr t.toXR) s.toXR = (l.foldl (openNbr t) s).toXR := by
  induction l with
  | nil => intro s; rfl
  | cons n l ih => intro s; rw [List.foldl_cons, List.foldl_cons, openNbr_hom, ih]

theorem popBody_hom (goal : Nat) (s : St XQ) (idx : Nat) (rest : List Nat) (hok : ((s.setLow rest).g.occ idx || okEik (s.setLow rest).g idx) = true) :
    popBody goal eikS s.toXR idx rest = (popBody goal eikS s idx rest).toXR := by
  unfold popBody
  dsimp only
  rw [setLow_hom]
  generalize s.setLow rest = s at hok
  show (if s.g.toXR.occ idx = true then _ else _) = _
  rw [Grid.toXR_occ]
  by_cases h0 : s.g.occ idx = true
  · rw [if_pos h0, if_pos h0]
  · rw [if_neg h0, if_neg h0]
    have hok : okEik s.g idx = true := by simpa [h0] using hok
    have he : eikS s.toXR.g idx = ((eikS s.g idx).1.toXR, (eikS s.g idx).2) := eikS_hom _ _ hok
    rw [he]
    dsimp only
    have e : ({ s.toXR with g := s.toXR.g.setScratch (eikS s.g idx).2 } : St XR) = St.toXR { s with g := s.g.setScratch (eikS s.g idx).2 } := rfl
    have e2 : ({ s.toXR with g := (s.toXR.g.setScratch (eikS s.g idx).2).setValue idx (eikS s.g idx).1.toXR } : St XR) =
        St.toXR { s with g := (s.g.setScratch (eikS s.g idx).2).setValue idx (eikS s.g idx).1 } := by
      unfold St.toXR; dsimp only; rw [Grid.toXR_setValue]; rfl
    by_cases h2 : Arith.better (eikS s.g idx).1 (s.g.value idx) = true
    · rw [if_pos (show Arith.better (eikS s.g idx).1 ((s.g.setScratch (eikS s.g idx).2).value idx) = true from h2),
        if_pos (show Arith.better (eikS s.g idx).1.toXR ((s.toXR.g.setScratch (eikS s.g idx).2).value idx) = true from (better_hom _ _).trans h2)]
      rw [e2]
      rw [show (s.toXR.g.setScratch (eikS s.g idx).2).shape.nbrs idx = s.g.shape.nbrs idx from rfl, openNbrs_hom]
      unfold St.toXR
      dsimp only
      rw [Grid.toXR_setState]
      rfl
    · rw [if_neg (show ¬ Arith.better (eikS s.g idx).1 ((s.g.setScratch (eikS s.g idx).2).value idx) = true from h2),
        if_neg (show ¬ Arith.better (eikS s.g idx).1.toXR ((s.toXR.g.setScratch (eikS s.g idx).2).value idx) = true from fun h => h2 ((better_hom _ _).symm.trans h))]
      rw [e]
      dsimp only
      unfold St.toXR
      dsimp only
      rw [Grid.toXR_setState]

theorem turn_hom (s : St XQ) : turn s.toXR = (turn s).toXR := by
  have ep : (if s.c1 ≠ 0 then Arith.div (Arith.ofNat s.c0) (Arith.ofNat s.c1) else Arith.one : XR) =
      (if s.c1 ≠ 0 then Arith.div (Arith.ofNat s.c0) (Arith.ofNat s.c1) else Arith.one : XQ).toXR := by
    rw [apply_ite XQ.toXR]
    congr 1
    · rw [show (Arith.div (Arith.ofNat s.c0) (Arith.ofNat s.c1) : XQ).toXR = XR.div _ _ from toXR_div _ _]
      unfold Arith.ofNat
      rw [toXR_ofRat, toXR_ofRat]; rfl
    · show XR.fin 1 = XR.fin _
      simp
  have ec0 : s.toXR.c0 = s.c0 := rfl
  have ec1 : s.toXR.c1 = s.c1 := rfl
  unfold turn
  dsimp only
  rw [ec0, ec1, ep]
  generalize (if s.c1 ≠ 0 then Arith.div (Arith.ofNat s.c0) (Arith.ofNat s.c1) else Arith.one : XQ) = p
  have e1 : Arith.le p.toXR (Arith.ofRat 65 100) = Arith.le p (Arith.ofRat 65 100 : XQ) := by rw [← toXR_ofRat, le_hom]
  have e2 : Arith.le (Arith.ofRat 75 100) p.toXR = Arith.le (Arith.ofRat 75 100 : XQ) p := by rw [← toXR_ofRat, le_hom]
  rw [e1, e2]
  have e3 : (if Arith.le p (Arith.ofRat 65 100 : XQ) = true then Arith.mul s.toXR.thStep (Arith.ofRat 3 2)
      else if Arith.le (Arith.ofRat 75 100 : XQ) p = true then Arith.div s.toXR.thStep (Arith.ofRat 2 1) else s.toXR.thStep : XR) =
      (if Arith.le p (Arith.ofRat 65 100 : XQ) = true then Arith.mul s.thStep (Arith.ofRat 3 2)
      else if Arith.le (Arith.ofRat 75 100 : XQ) p = true then Arith.div s.thStep (Arith.ofRat 2 1) else s.thStep : XQ).toXR := by
    rw [apply_ite XQ.toXR, apply_ite XQ.toXR]
    rw [show (Arith.mul s.thStep (Arith.ofRat 3 2) : XQ).toXR = XR.mul _ _ from toXR_mul _ _, show (Arith.div s.thStep (Arith.ofRat 2 1) : XQ).toXR = XR.div _ _ from toXR_div _ _]
    rw [toXR_ofRat, toXR_ofRat]; rfl
  rw [e3]
  unfold St.toXR
  dsimp only
  congr 1
  exact (toXR_add _ _).symm

def okNext (s : St XQ) : Bool :=
  if s.inner then
    match s.stop, s.low with
    | false, idx :: rest => (s.setLow rest).g.occ idx || okEik (s.setLow rest).g idx
    | _, _ => true
  else true

theorem next_hom (goal : Nat) (s : St XQ) (hok : okNext s = true) : next goal eikS s.toXR = (next goal eikS s).toXR := by
  unfold next
  unfold okNext at hok
  show (if s.inner = true then (match s.stop, s.low with | false, idx :: rest => popBody goal eikS s.toXR idx rest | _, _ => turn s.toXR) else _) = _
  by_cases h : s.inner = true
  · rw [if_pos h, if_pos h]
    rw [if_pos h] at hok
    cases hst : s.stop with
    | true => exact turn_hom s
    | false =>
      rw [hst] at hok
      cases hl : s.low with
      | nil => exact turn_hom s
      | cons idx rest =>
        rw [hl] at hok
        exact popBody_hom goal s idx rest hok
  · rw [if_neg h, if_neg h]; rfl

/-- at most `n` steps -/
def run {F : Type} [Arith F] (goal : Nat) : Nat → St F → St F
  | 0, s => s
  | n + 1, s => if s.inner = false ∧ (s.stop = true ∨ (s.q0 = [] ∧ s.q1 = [])) then s else run goal n (next goal eikS s)

def okRun (goal : Nat) : Nat → St XQ → Bool
  | 0, _ => true
  | n + 1, s => if s.inner = false ∧ (s.stop = true ∨ (s.q0 = [] ∧ s.q1 = [])) then true else okNext s && okRun goal n (next goal eikS s)

theorem run_hom (goal n : Nat) : ∀ s : St XQ, okRun goal n s = true → run goal n s.toXR = (run goal n s).toXR := by
  induction n with
  | zero => intro s _; rfl
  | succ n ih =>
    intro s hok
    unfold okRun at hok
    unfold run
    by_cases h : s.inner = false ∧ (s.stop = true ∨ (s.q0 = [] ∧ s.q1 = []))
    · rw [if_pos h, if_pos (show s.toXR.inner = false ∧ (s.toXR.stop = true ∨ (s.toXR.q0 = [] ∧ s.toXR.q1 = [])) from h)]
    · rw [if_neg h, if_neg (show ¬ (s.toXR.inner = false ∧ (s.toXR.stop = true ∨ (s.toXR.q0 = [] ∧ s.toXR.q1 = []))) from h)]
      rw [if_neg h, Bool.and_eq_true] at hok
      rw [next_hom goal s hok.1, ih _ hok.2]

theorem run_steps {F : Type} [Arith F] (goal n : Nat) : ∀ s : St F, ∃ k, FMM.Steps (Step goal eikS) k s (run goal n s) := by
  induction n with
  | zero => intro s; exact ⟨0, .refl _⟩
  | succ n ih =>
    intro s
    unfold run
    split
    · exact ⟨0, .refl _⟩
    · next h =>
      obtain ⟨k, hk⟩ := ih (next goal eikS s)
      exact ⟨k + 1, FMV.Steps.head ⟨h, rfl⟩ hk⟩

theorem init_hom (g : Grid XQ) (pts : List Nat) (th ths : XQ) : init g.toXR pts th.toXR ths.toXR = (init g pts th ths).toXR := by
  have key : ∀ (pts : List Nat) (p : Grid XQ × List Nat), pts.foldl initPoint (p.1.toXR, p.2) =
      ((pts.foldl initPoint p).1.toXR, (pts.foldl initPoint p).2) := by
    intro pts
    induction pts with
    | nil => intro p; rfl
    | cons i l ih =>
      intro p
      rw [List.foldl_cons, List.foldl_cons, ← ih]
      congr 1
      unfold initPoint
      dsimp only
      rw [show p.1.toXR.shape.nbrs i = p.1.shape.nbrs i from rfl, ← zero_hom, ← Grid.toXR_setValue]
      generalize p.1.setValue i Arith.zero = g
      generalize p.2 = q
      generalize p.1.shape.nbrs i = ns
      induction ns generalizing g q with
      | nil => rfl
      | cons n ns ih =>
        rw [List.foldl_cons, List.foldl_cons]
        unfold initNbr
        dsimp only
        rw [Grid.toXR_occ]
        split
        · exact ih _ _
        · rw [← Grid.toXR_setState]; exact ih _ _
  unfold init
  rw [FSM.allState_hom, key pts (FSM.allState .frozen g, [])]
  rfl

end DDQM

namespace FIM

/-- the state with its numbers in `XR` -/
noncomputable def St.toXR (s : St XQ) : St XR := ⟨s.g.toXR, s.before, s.after, s.stop⟩

def okNbr (s : St XQ) (n : Nat) : Bool := decide (s.g.state n = .narrow) || s.g.occ n || okEik s.g n

theorem testNbr_hom (s : St XQ) (n : Nat) (hok : okNbr s n = true) : testNbr eikS s.toXR n = (testNbr eikS s n).toXR := by
  unfold testNbr
  show (if s.g.toXR.state n = .narrow ∨ s.g.toXR.occ n = true then _ else _) = _
  rw [Grid.toXR_state, Grid.toXR_occ]
  by_cases h : s.g.state n = .narrow ∨ s.g.occ n = true
  · rw [if_pos h, if_pos h]
  · rw [if_neg h, if_neg h]
    push Not at h
    have hok : okEik s.g n = true := by simpa [okNbr, h.1, h.2] using hok
    have he : eikS s.toXR.g n = ((eikS s.g n).1.toXR, (eikS s.g n).2) := eikS_hom _ _ hok
    have hb : Arith.better (eikS s.g n).1.toXR (s.toXR.g.value n) = Arith.better (eikS s.g n).1 (s.g.value n) := better_hom _ _
    rw [he]
    dsimp only
    rw [hb]
    split
    · unfold St.toXR; dsimp only; rw [Grid.toXR_setState, Grid.toXR_setValue]; rfl
    · rfl

def okNbrs : List Nat → St XQ → Bool
  | [], _ => true
  | n :: l, s => okNbr s n && okNbrs l (testNbr eikS s n)

theorem nbrs_hom (l : List Nat) : ∀ s : St XQ, okNbrs l s = true → l.foldl (testNbr eikS) s.toXR = (l.foldl (testNbr eikS) s).toXR := by
  induction l with
  | nil => intro s _; rfl
  | cons n l ih =>
    intro s hok
    unfold okNbrs at hok
    rw [Bool.and_eq_true] at hok
    rw [List.foldl_cons, List.foldl_cons, testNbr_hom s n hok.1, ih _ hok.2]

def okVisit (s : St XQ) (x : Nat) : Bool :=
  okEik s.g x && okNbrs (s.g.shape.nbrs x) { s with g := (s.g.setScratch (eikS s.g x).2).setValue x (eikS s.g x).1 }

theorem visit_hom (E : XQ) (goal : Nat) (s : St XQ) (x : Nat) (rest : List Nat) (hok : okVisit s x = true) :
    visit E.toXR goal eikS s.toXR x rest = (visit E goal eikS s x rest).toXR := by
  unfold okVisit at hok
  rw [Bool.and_eq_true] at hok
  have he : eikS s.toXR.g x = ((eikS s.g x).1.toXR, (eikS s.g x).2) := eikS_hom _ _ hok.1
  have hl : Arith.le (Arith.abs (Arith.sub (s.toXR.g.value x) (eikS s.g x).1.toXR)) E.toXR = Arith.le (Arith.abs (Arith.sub (s.g.value x) (eikS s.g x).1)) E := by
    rw [show Arith.sub (s.toXR.g.value x) (eikS s.g x).1.toXR = (Arith.sub (s.g.value x) (eikS s.g x).1).toXR from (toXR_sub _ _).symm, abs_hom, le_hom]
  have e : ({ s.toXR with g := (s.toXR.g.setScratch (eikS s.g x).2).setValue x (eikS s.g x).1.toXR } : St XR) =
      St.toXR { s with g := (s.g.setScratch (eikS s.g x).2).setValue x (eikS s.g x).1 } := by
    unfold St.toXR; dsimp only; rw [Grid.toXR_setValue]; rfl
  unfold visit
  rw [he]
  dsimp only
  rw [hl]
  split
  · rw [e, show (((s.toXR.g.setScratch (eikS s.g x).2).setValue x (eikS s.g x).1.toXR).shape.nbrs x) = s.g.shape.nbrs x from rfl, nbrs_hom _ _ hok.2]
    unfold St.toXR
    dsimp only
    rw [Grid.toXR_setState]
    rfl
  · unfold St.toXR; dsimp only; rw [Grid.toXR_setValue]; rfl

def okNext (s : St XQ) : Bool :=
  match s.after with
  | x :: _ => okVisit s x
  | [] => true

theorem next_hom (E : XQ) (goal : Nat) (s : St XQ) (hok : okNext s = true) : next E.toXR goal eikS s.toXR = (next E goal eikS s).toXR := by
  unfold next
  unfold okNext at hok
  show (match s.after with | x :: rest => visit E.toXR goal eikS s.toXR x rest | [] => _) = _
  cases hr : s.after with
  | nil => rfl
  | cons x rest =>
    rw [hr] at hok
    exact visit_hom E goal s x rest hok

/-- at most `n` steps -/
def run {F : Type} [Arith F] (E : F) (goal : Nat) : Nat → St F → St F
  | 0, s => s
  | n + 1, s => if s.after = [] ∧ (s.stop = true ∨ s.before = []) then s else run E goal n (next E goal eikS s)

def okRun (E : XQ) (goal : Nat) : Nat → St XQ → Bool
  | 0, _ => true
  | n + 1, s => if s.after = [] ∧ (s.stop = true ∨ s.before = []) then true else okNext s && okRun E goal n (next E goal eikS s)

theorem run_hom (E : XQ) (goal n : Nat) : ∀ s : St XQ, okRun E goal n s = true → run E.toXR goal n s.toXR = (run E goal n s).toXR := by
  induction n with
  | zero => intro s _; rfl
  | succ n ih =>
    intro s hok
    unfold okRun at hok
    unfold run
    by_cases h : s.after = [] ∧ (s.stop = true ∨ s.before = [])
    · rw [if_pos h, if_pos (show s.toXR.after = [] ∧ (s.toXR.stop = true ∨ s.toXR.before = []) from h)]
    · rw [if_neg h, if_neg (show ¬ (s.toXR.after = [] ∧ (s.toXR.stop = true ∨ s.toXR.before = [])) from h)]
      rw [if_neg h, Bool.and_eq_true] at hok
      rw [next_hom E goal s hok.1, ih _ hok.2]

theorem run_steps {F : Type} [Arith F] (E : F) (goal n : Nat) : ∀ s : St F, ∃ k, FMM.Steps (Step E goal eikS) k s (run E goal n s) := by
  induction n with
  | zero => intro s; exact ⟨0, .refl _⟩
  | succ n ih =>
    intro s
    unfold run
    split
    · exact ⟨0, .refl _⟩
    · next h =>
      obtain ⟨k, hk⟩ := ih (next E goal eikS s)
      exact ⟨k + 1, FMV.Steps.head ⟨h, rfl⟩ hk⟩

theorem init_hom (g : Grid XQ) (pts : List Nat) : init g.toXR [] pts = (init g [] pts).toXR := by
  have key : ∀ (pts : List Nat) (p : Grid XQ × List Nat), pts.foldl initPoint (p.1.toXR, p.2) =
      ((pts.foldl initPoint p).1.toXR, (pts.foldl initPoint p).2) := by
    intro pts
    induction pts with
    | nil => intro p; rfl
    | cons i l ih =>
      intro p
      rw [List.foldl_cons, List.foldl_cons, ← ih]
      congr 1
      unfold initPoint
      dsimp only
      rw [show p.1.toXR.shape.nbrs i = p.1.shape.nbrs i from rfl, ← zero_hom, ← Grid.toXR_setValue, ← Grid.toXR_setState]
      generalize (p.1.setValue i Arith.zero).setState i .frozen = g
      generalize p.2 = q
      generalize p.1.shape.nbrs i = ns
      induction ns generalizing g q with
      | nil => rfl
      | cons n ns ih =>
        rw [List.foldl_cons, List.foldl_cons]
        unfold initNbr
        dsimp only
        rw [Grid.toXR_occ, Grid.toXR_state]
        split
        · rw [← Grid.toXR_setState]; exact ih _ _
        · exact ih _ _
  unfold init
  rw [key pts (g, [])]
  rfl

end FIM
end FMV
