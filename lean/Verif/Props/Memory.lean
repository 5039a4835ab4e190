import Verif.Lemmas.Outside
import Verif.Lemmas.FSMBasic
import Verif.Model.DDQM
import Verif.Model.FIM
import Verif.Model.GMM
import Verif.Model.UQ
/-
C48: the solvers are confined to the grid.
-/
set_option linter.unusedSectionVars false
set_option linter.unusedVariables false
namespace FMV
open Spec Arith Shape
variable {F : Type} [Arith F] {J : Nat → Cell F} {dims : List Nat}

namespace Mem

theorem nc {g : Grid F} (hf : Fits dims (2^31+1)) (hs : g.shape = Shape.mk' dims) {i : Nat} (hi : i < dims.prod) : i < g.shape.ncells := by
  rw [hs, mk'_ncells (hf.mono (by norm_num))]; exact hi

/-! ### FMM and its variants -/

/-- the state with other things beyond the grid -/
def oFMM (J : Nat → Cell F) (s : FMM.St F) : FMM.St F := { s with g := outside J s.g }

theorem applyHeur_out (cfg : FMM.Cfg F) {g : Grid F} {i : Nat} (h : i < g.shape.ncells) : FMM.applyHeur cfg (outside J g) i = outside J (FMM.applyHeur cfg g i) := by
  unfold FMM.applyHeur
  cases cfg.heur
  · rfl
  · simp only [outside_vel h]; exact outside_setH _ h
  · exact outside_setH _ h

def IFMM (dims : List Nat) (s : FMM.St F) : Prop := s.g.shape = Shape.mk' dims ∧ ∀ x ∈ s.heap, x < dims.prod

theorem relaxFMM_out (hf : Fits dims (2^31+1)) (cfg : FMM.Cfg F) {eik : Eik F} (he : Confined dims eik) {s : FMM.St F} {j : Nat} (hI : IFMM dims s) (hj : j < dims.prod) :
    FMM.relax cfg eik (oFMM J s) j = oFMM J (FMM.relax cfg eik s j) ∧ IFMM dims (FMM.relax cfg eik s j) := by
  obtain ⟨hs, hh⟩ := hI
  have h := nc hf hs hj
  unfold FMM.relax oFMM
  simp only [outside_state h, outside_occ h, he J s.g j hs hj, outside_value h, outside_setScratch]
  rw [applyHeur_out cfg (by simpa using h)]
  have h' : j < (FMM.applyHeur cfg (s.g.setScratch (eik s.g j).2) j).shape.ncells := by simpa using h
  split
  · exact ⟨rfl, hs, hh⟩
  · split
    · split
      · refine ⟨by simp only [outside_setValue _ h'], by simpa using hs, ?_⟩
        intro x hx
        simp only at hx
        split at hx
        · rcases List.mem_cons.1 hx with rfl | hx
          exacts [hj, hh x hx]
        · exact hh x hx
      · exact ⟨rfl, by simpa using hs, hh⟩
    · refine ⟨?_, by simpa using hs, ?_⟩
      · simp only [outside_setState _ h']
        rw [outside_setValue _ (by simpa using h')]
      · intro x hx
        rcases List.mem_cons.1 hx with rfl | hx
        exacts [hj, hh x hx]

theorem expandFMM_out (hf : Fits dims (2^31+1)) (cfg : FMM.Cfg F) {eik : Eik F} (he : Confined dims eik) {s : FMM.St F} {x : Nat} (hI : IFMM dims s) (hx : x ∈ s.heap) :
    FMM.expand cfg eik (oFMM J s) x = oFMM J (FMM.expand cfg eik s x) ∧ IFMM dims (FMM.expand cfg eik s x) := by
  obtain ⟨hs, hh⟩ := hI
  have h := nc hf hs (hh x hx)
  have hnb : ∀ j ∈ s.g.shape.nbrs x, j < dims.prod := by
    intro j hj; rw [hs] at hj; exact FMM.nbr_lt hf (hh x hx) hj
  obtain ⟨h1, h2⟩ := foldl_out (oFMM J) (FMM.relax cfg eik) (IFMM dims) (s.g.shape.nbrs x) (fun t a ha ht => relaxFMM_out hf cfg he ht (hnb a ha))
    { s with g := s.g.setState x .frozen, heap := s.heap.erase x } ⟨by simpa using hs, fun y hy => hh y (List.mem_of_mem_erase hy)⟩
  unfold FMM.expand
  have e : ({ oFMM J s with g := (oFMM J s).g.setState x .frozen, heap := (oFMM J s).heap.erase x } : FMM.St F) =
      oFMM J { s with g := s.g.setState x .frozen, heap := s.heap.erase x } := by
    unfold oFMM
    simp only [outside_setState _ h]
  have e2 : (oFMM J s).g.shape = s.g.shape := rfl
  simp only [e, e2, h1]
  exact ⟨rfl, h2⟩

theorem initFMM_out (hf : Fits dims (2^31+1)) (cfg : FMM.Cfg F) {g : Grid F} {pts : List Nat} (hin : Input dims g pts) :
    FMM.init cfg (outside J g) [] pts = oFMM J (FMM.init cfg g [] pts) ∧ IFMM dims (FMM.init cfg g [] pts) := by
  refine foldl_out (oFMM J) (FMM.initPoint cfg) (IFMM dims) pts ?_ { g := g, heap := [], stop := false } ⟨hin.shape, by simp⟩
  rintro s i hi ⟨hs, hh⟩
  have hip := hin.inside i hi
  have h := nc hf hs hip
  refine ⟨?_, by simpa [FMM.initPoint] using hs, ?_⟩
  · unfold FMM.initPoint oFMM
    simp only [outside_setValue _ h]
    rw [applyHeur_out cfg (by simpa using h)]
  · intro x hx
    rcases List.mem_cons.1 hx with rfl | hx
    exacts [hip, hh x hx]

theorem doneFMM_out (s : FMM.St F) : FMM.Done (oFMM J s) ↔ FMM.Done s := Iff.rfl

end Mem

open Mem

/-- **C48** for FMM, SFMM and their starred versions: a run never looks at, depends on, or changes anything beyond the cells of the grid (any element popped, any
floating-point semantics), and the narrow band only ever contains cells of the grid. -/
theorem C48_FMM (cfg : FMM.Cfg F) {g : Grid F} {pts : List Nat} (hin : Input dims g pts) (hthin : NoThin dims) {n : Nat} {s : FMM.St F}
    (hs : FMM.Steps (FMM.StepLib cfg) n (FMM.init cfg g [] pts) s) :
    (∀ x ∈ s.heap, x < dims.prod) ∧
    ∀ J, FMM.Steps (FMM.StepLib cfg) n (FMM.init cfg (outside J g) [] pts) { s with g := outside J s.g } := by
  have he : Confined dims (eikS : Eik F) := eikS_confined hin.fits hthin
  obtain ⟨i1, i2⟩ := initFMM_out (J := g.cells) hin.fits cfg hin
  have key : ∀ J, FMM.Steps (FMM.StepLib cfg) n (oFMM J (FMM.init cfg g [] pts)) (oFMM J s) ∧ IFMM dims s := by
    intro J
    refine steps_out (oFMM J) (IFMM dims) ?_ i2 hs
    rintro s t hI ⟨h3, x, hx, rfl⟩
    obtain ⟨h4, h5⟩ := expandFMM_out (J := J) hin.fits cfg he hI hx
    exact ⟨⟨h3, x, hx, h4.symm⟩, h5⟩
  refine ⟨(key g.cells).2.2, fun J => ?_⟩
  rw [(initFMM_out (J := J) hin.fits cfg hin).1]
  exact (key J).1

namespace Mem

/-! ### FSM and LSM -/

def oFSM (J : Nat → Cell F) (s : FSM.St F) : FSM.St F := { s with g := outside J s.g }

def IFSM (dims : List Nat) (s : FSM.St F) : Prop := s.g.shape = Shape.mk' dims ∧ FSM.IsDirs dims.length s.incs

/-- a `solveForIdx` confined to the grid -/
def ConfinedSolve (dims : List Nat) (solve : FSM.St F → Nat → FSM.St F) : Prop :=
  ∀ (J : Nat → Cell F) (s : FSM.St F) (i : Nat), s.g.shape = Shape.mk' dims → i < dims.prod →
    solve (oFSM J s) i = oFSM J (solve s i) ∧ (solve s i).g.shape = Shape.mk' dims ∧ (solve s i).incs = s.incs

theorem solveFSM_confined (hf : Fits dims (2^31+1)) {eik : Eik F} (he : Confined dims eik) (goal : Nat) : ConfinedSolve dims (FSM.solveFSM goal eik) := by
  intro J s i hs hi
  have h := nc hf hs hi
  unfold FSM.solveFSM oFSM
  simp only [outside_value h, he J s.g i hs hi, outside_setScratch]
  split
  · exact ⟨by rw [outside_setValue _ (by simpa using h)], by simpa using hs, rfl⟩
  · split <;> exact ⟨rfl, by simpa using hs, rfl⟩

theorem openBetter_out (hf : Fits dims (2^31+1)) (t : F) (ns : List Nat) (hns : ∀ n ∈ ns, n < dims.prod) (g : Grid F) (hs : g.shape = Shape.mk' dims) :
    ns.foldl (fun g n => if better t (g.value n) then g.setState n .opn else g) (outside J g) =
      outside J (ns.foldl (fun g n => if better t (g.value n) then g.setState n .opn else g) g) ∧
    (ns.foldl (fun g n => if better t (g.value n) then g.setState n .opn else g) g).shape = Shape.mk' dims := by
  refine foldl_out (outside J) _ (fun g => g.shape = Shape.mk' dims) ns ?_ g hs
  intro g n hn hs
  have h := nc hf hs (hns n hn)
  rw [outside_value h]
  split
  · exact ⟨outside_setState _ h, hs⟩
  · exact ⟨rfl, hs⟩

theorem solveLSM_confined (hf : Fits dims (2^31+1)) {eik : Eik F} (he : Confined dims eik) (goal : Nat) : ConfinedSolve dims (FSM.solveLSM goal eik) := by
  intro J s i hs hi
  have h := nc hf hs hi
  have hnb : ∀ j ∈ s.g.shape.nbrs i, j < dims.prod := by
    intro j hj; rw [hs] at hj; exact FMM.nbr_lt hf hi hj
  obtain ⟨e1, e2⟩ := openBetter_out (J := J) hf (eik s.g i).1 (s.g.shape.nbrs i) hnb ((s.g.setScratch (eik s.g i).2).setValue i (eik s.g i).1) (by simpa using hs)
  unfold FSM.solveLSM oFSM
  simp only [outside_state h, outside_value h, he J s.g i hs hi, outside_setScratch, outside_shape]
  split
  · split
    · simp only
      rw [outside_setValue _ (by simpa using h), e1, outside_setState _ (nc hf e2 hi)]
      exact ⟨rfl, e2, trivial⟩
    · split
      · simp only
        rw [outside_setState _ (by simpa using h)]
        exact ⟨rfl, by simpa using hs, trivial⟩
      · simp only
        rw [outside_setState _ (by simpa using h)]
        exact ⟨rfl, by simpa using hs, trivial⟩
  · exact ⟨rfl, hs, rfl⟩

theorem sweep_out (hf : Fits dims (2^31+1)) {solve : FSM.St F → Nat → FSM.St F} (hc : ConfinedSolve dims solve) {s : FSM.St F} (hI : IFSM dims s) :
    FSM.sweep solve (oFSM J s) = oFSM J (FSM.sweep solve s) ∧ IFSM dims (FSM.sweep solve s) := by
  obtain ⟨hs, hd⟩ := hI
  have hd' : FSM.IsDirs dims.length (FSM.bump s.incs) := FSM.bump_isDirs hd
  have hord : ∀ i ∈ FSM.sweepOrder s.g.shape.dims (FSM.bump s.incs), i < dims.prod := by
    intro i hi
    rw [hs] at hi
    have := C21_sweep_visits_each_once dims (by intro e; have := hf.two; simp [e] at this) _ hd'
    exact List.mem_range.1 (this.mem_iff.1 hi)
  have := foldl_out (oFSM J) (FSM.visit solve) (IFSM dims) (FSM.sweepOrder s.g.shape.dims (FSM.bump s.incs)) ?_
    ({ s with keep := false, incs := FSM.bump s.incs, sweeps := u32 (s.sweeps + 1) } : FSM.St F) ⟨hs, hd'⟩
  · exact this
  · rintro t i hi ⟨ht, htd⟩
    unfold FSM.visit
    have h := nc hf ht (hord i hi)
    have : (oFSM J t).g.occ i = t.g.occ i := outside_occ h
    rw [this]
    obtain ⟨c1, c2, c3⟩ := hc J t i ht (hord i hi)
    split
    · exact ⟨rfl, ht, htd⟩
    · exact ⟨c1, c2, by rw [c3]; exact htd⟩

theorem initFSM_out (hf : Fits dims (2^31+1)) {g : Grid F} {pts : List Nat} (hin : Input dims g pts) (k : Nat) (incs : List Int) (hd : FSM.IsDirs dims.length incs) :
    FSM.initFSM (outside J g) pts k incs = oFSM J (FSM.initFSM g pts k incs) ∧ IFSM dims (FSM.initFSM g pts k incs) := by
  obtain ⟨h1, h2⟩ := foldl_out (outside J) (fun g i => g.setValue i zero) (fun g : Grid F => g.shape = Shape.mk' dims) pts
    (fun g i hi hs => ⟨outside_setValue _ (nc hf hs (hin.inside i hi)), hs⟩) g hin.shape
  unfold FSM.initFSM oFSM
  rw [h1]
  exact ⟨rfl, h2, hd⟩

theorem allState_out (st : FMState) (g : Grid F) : FSM.allState st (outside J g) = outside J (FSM.allState st g) := by
  unfold FSM.allState outside
  simp only
  congr 1
  funext i
  by_cases h : i < g.shape.ncells <;> simp [h]

theorem initLSM_out (hf : Fits dims (2^31+1)) {g : Grid F} {pts : List Nat} (hin : Input dims g pts) (k : Nat) (incs : List Int) (hd : FSM.IsDirs dims.length incs) :
    FSM.initLSM (outside J g) pts k incs = oFSM J (FSM.initLSM g pts k incs) ∧ IFSM dims (FSM.initLSM g pts k incs) := by
  obtain ⟨h1, h2⟩ := foldl_out (outside J) FSM.initPointLSM (fun g : Grid F => g.shape = Shape.mk' dims) pts (by
    intro g i hi hs
    have h := nc hf hs (hin.inside i hi)
    have hnb : ∀ j ∈ g.shape.nbrs i, j < dims.prod := by
      intro j hj; rw [hs] at hj; exact FMM.nbr_lt hf (hin.inside i hi) hj
    unfold FSM.initPointLSM
    rw [outside_setValue _ h]
    exact foldl_out (outside J) (fun g n => g.setState n .opn) (fun g : Grid F => g.shape = Shape.mk' dims) (g.shape.nbrs i)
      (fun g n hn hs => ⟨outside_setState _ (nc hf hs (hnb n hn)), hs⟩) _ (by simpa using hs)) (FSM.allState .frozen g) hin.shape
  unfold FSM.initLSM oFSM
  rw [allState_out, h1]
  exact ⟨rfl, h2, hd⟩

theorem stepsFSM_out (hf : Fits dims (2^31+1)) {solve : FSM.St F → Nat → FSM.St F} (hc : ConfinedSolve dims solve) (m : Nat) {n : Nat} {s0 s : FSM.St F} (h0 : IFSM dims s0)
    (hs : FMM.Steps (FSM.Step m solve) n s0 s) (J : Nat → Cell F) : FMM.Steps (FSM.Step m solve) n (oFSM J s0) (oFSM J s) := by
  refine (steps_out (oFSM J) (IFSM dims) ?_ h0 hs).1
  rintro s t hI ⟨h3, rfl⟩
  obtain ⟨h4, h5⟩ := sweep_out (J := J) hf hc hI
  exact ⟨⟨h3, h4.symm⟩, h5⟩

end Mem

/-- **C48** for FSM. -/
theorem C48_FSM {g : Grid F} {pts : List Nat} (hin : Input dims g pts) (hthin : NoThin dims) (goal maxSweeps k : Nat) (incs : List Int) (hd : FSM.IsDirs dims.length incs)
    {n : Nat} {s : FSM.St F} (hs : FMM.Steps (FSM.Step maxSweeps (FSM.solveFSM goal eikS)) n (FSM.initFSM g pts k incs) s) (J : Nat → Cell F) :
    FMM.Steps (FSM.Step maxSweeps (FSM.solveFSM goal eikS)) n (FSM.initFSM (outside J g) pts k incs) { s with g := outside J s.g } := by
  obtain ⟨h1, h2⟩ := initFSM_out (J := J) hin.fits hin k incs hd
  rw [h1]
  exact stepsFSM_out hin.fits (solveFSM_confined hin.fits (eikS_confined hin.fits hthin) goal) maxSweeps h2 hs J

/-- **C48** for LSM. -/
theorem C48_LSM {g : Grid F} {pts : List Nat} (hin : Input dims g pts) (hthin : NoThin dims) (goal maxSweeps k : Nat) (incs : List Int) (hd : FSM.IsDirs dims.length incs)
    {n : Nat} {s : FSM.St F} (hs : FMM.Steps (FSM.Step maxSweeps (FSM.solveLSM goal eikS)) n (FSM.initLSM g pts k incs) s) (J : Nat → Cell F) :
    FMM.Steps (FSM.Step maxSweeps (FSM.solveLSM goal eikS)) n (FSM.initLSM (outside J g) pts k incs) { s with g := outside J s.g } := by
  obtain ⟨h1, h2⟩ := initLSM_out (J := J) hin.fits hin k incs hd
  rw [h1]
  exact stepsFSM_out hin.fits (solveLSM_confined hin.fits (eikS_confined hin.fits hthin) goal) maxSweeps h2 hs J

namespace Mem

/-! ### DDQM -/

def oDD (J : Nat → Cell F) (s : DDQM.St F) : DDQM.St F := { s with g := outside J s.g }

def IDD (dims : List Nat) (s : DDQM.St F) : Prop := s.g.shape = Shape.mk' dims ∧ (∀ x ∈ s.q0, x < dims.prod) ∧ ∀ x ∈ s.q1, x < dims.prod

theorem low_out (s : DDQM.St F) : (oDD J s).low = s.low := rfl
theorem setLow_out (s : DDQM.St F) (q) : (oDD J s).setLow q = oDD J (s.setLow q) := by unfold DDQM.St.setLow oDD; simp only; split <;> rfl
theorem setHigh_out (s : DDQM.St F) (q) : (oDD J s).setHigh q = oDD J (s.setHigh q) := by unfold DDQM.St.setHigh oDD; simp only; split <;> rfl
theorem setLow_I {s : DDQM.St F} {q : List Nat} (h : IDD dims s) (hq : ∀ x ∈ q, x < dims.prod) : IDD dims (s.setLow q) := by
  unfold DDQM.St.setLow; split
  exacts [⟨h.1, h.2.1, hq⟩, ⟨h.1, hq, h.2.2⟩]
theorem setHigh_I {s : DDQM.St F} {q : List Nat} (h : IDD dims s) (hq : ∀ x ∈ q, x < dims.prod) : IDD dims (s.setHigh q) := by
  unfold DDQM.St.setHigh; split
  exacts [⟨h.1, hq, h.2.2⟩, ⟨h.1, h.2.1, hq⟩]
theorem low_I {s : DDQM.St F} (h : IDD dims s) : ∀ x ∈ s.low, x < dims.prod := by
  unfold DDQM.St.low; split
  exacts [h.2.2, h.2.1]
theorem high_I {s : DDQM.St F} (h : IDD dims s) : ∀ x ∈ s.high, x < dims.prod := by
  unfold DDQM.St.high; split
  exacts [h.2.1, h.2.2]
theorem snoc_I {q : List Nat} {n : Nat} (h : ∀ x ∈ q, x < dims.prod) (hn : n < dims.prod) : ∀ x ∈ q ++ [n], x < dims.prod := by
  intro x hx
  rcases List.mem_append.1 hx with hx | hx
  · exact h x hx
  · rw [List.mem_singleton.1 hx]; exact hn

theorem openNbr_out (hf : Fits dims (2^31+1)) (t : F) {s : DDQM.St F} {n : Nat} (hI : IDD dims s) (hn : n < dims.prod) :
    DDQM.openNbr t (oDD J s) n = oDD J (DDQM.openNbr t s n) ∧ IDD dims (DDQM.openNbr t s n) := by
  have h := nc hf hI.1 hn
  have e1 : (oDD J s).g.state n = s.g.state n := outside_state h
  have e2 : (oDD J s).g.value n = s.g.value n := outside_value h
  have e3 : (oDD J s).threshold = s.threshold := rfl
  unfold DDQM.openNbr
  simp only [e1, e2]
  have e4 : ({ oDD J s with g := (oDD J s).g.setState n .opn, c1 := ((oDD J s).c1 + 1) % 2^64 } : DDQM.St F) =
      oDD J { s with g := s.g.setState n .opn, c1 := (s.c1 + 1) % 2^64 } := by
    unfold oDD; simp only [outside_setState _ h]
  have hI1 : IDD dims { s with g := s.g.setState n .opn, c1 := (s.c1 + 1) % 2^64 } := hI
  rw [e4, low_out, setLow_out, setHigh_out]
  split
  · split
    · rw [e3]
      split
      · exact ⟨rfl, setLow_I hI1 (snoc_I (low_I hI1) hn)⟩
      · exact ⟨rfl, setHigh_I hI1 (snoc_I (high_I hI1) hn)⟩
    · exact ⟨rfl, hI⟩
  · exact ⟨rfl, hI⟩

/-- the middle part of `popBody` -/
def midDD (t : F) (idx : Nat) (s : DDQM.St F) : DDQM.St F :=
  if better t (s.g.value idx) then (s.g.shape.nbrs idx).foldl (DDQM.openNbr t) { s with g := s.g.setValue idx t } else s

theorem midDD_out (hf : Fits dims (2^31+1)) (t : F) {idx : Nat} (hx : idx < dims.prod) {s : DDQM.St F} (hI : IDD dims s) :
    midDD t idx (oDD J s) = oDD J (midDD t idx s) ∧ IDD dims (midDD t idx s) := by
  have h2 := nc hf hI.1 hx
  have hnb : ∀ j ∈ s.g.shape.nbrs idx, j < dims.prod := by
    intro j hj; rw [hI.1] at hj; exact FMM.nbr_lt hf hx hj
  unfold midDD
  have e5 : (oDD J s).g.value idx = s.g.value idx := outside_value h2
  rw [e5]
  split
  · have e6 : ({ oDD J s with g := (oDD J s).g.setValue idx t } : DDQM.St F) = oDD J { s with g := s.g.setValue idx t } := by
      unfold oDD; simp only [outside_setValue _ h2]
    rw [e6]
    exact foldl_out (oDD J) (DDQM.openNbr t) (IDD dims) _ (fun a n hn ha => openNbr_out hf t ha (hnb n hn)) _ hI
  · exact ⟨rfl, hI⟩

/-- the last part of `popBody` -/
def finDD (goal idx : Nat) (s : DDQM.St F) : DDQM.St F := { s with g := s.g.setState idx .frozen, stop := if idx = goal then true else s.stop }

theorem popBody_eq (goal : Nat) (eik : Eik F) (s : DDQM.St F) (idx : Nat) (rest : List Nat) :
    DDQM.popBody goal eik s idx rest = if (s.setLow rest).g.occ idx then s.setLow rest else
      finDD goal idx (midDD (eik (s.setLow rest).g idx).1 idx { s.setLow rest with g := (s.setLow rest).g.setScratch (eik (s.setLow rest).g idx).2 }) := rfl

theorem popBody_out (hf : Fits dims (2^31+1)) {eik : Eik F} (he : Confined dims eik) (goal : Nat) {s : DDQM.St F} {idx : Nat} {rest : List Nat} (hI : IDD dims s)
    (hl : s.low = idx :: rest) :
    DDQM.popBody goal eik (oDD J s) idx rest = oDD J (DDQM.popBody goal eik s idx rest) ∧ IDD dims (DDQM.popBody goal eik s idx rest) := by
  have hx : idx < dims.prod := low_I hI idx (by rw [hl]; simp)
  have hr : ∀ x ∈ rest, x < dims.prod := fun x hx => low_I hI x (by rw [hl]; simp [hx])
  have hI1 := setLow_I hI hr
  rw [popBody_eq, popBody_eq, setLow_out]
  generalize s.setLow rest = s1 at hI1
  have h := nc hf hI1.1 hx
  have e1 : (oDD J s1).g.occ idx = s1.g.occ idx := outside_occ h
  have e2 : eik (oDD J s1).g idx = eik s1.g idx := he J s1.g idx hI1.1 hx
  have e3 : ({ oDD J s1 with g := (oDD J s1).g.setScratch (eik (oDD J s1).g idx).2 } : DDQM.St F) = oDD J { s1 with g := s1.g.setScratch (eik s1.g idx).2 } := by
    rw [e2]; rfl
  have hI2 : IDD dims { s1 with g := s1.g.setScratch (eik s1.g idx).2 } := hI1
  rw [e1, e3, e2]
  split
  · exact ⟨rfl, hI1⟩
  · obtain ⟨m1, m2⟩ := midDD_out (J := J) hf (eik s1.g idx).1 hx hI2
    rw [m1]
    generalize midDD (eik s1.g idx).1 idx { s1 with g := s1.g.setScratch (eik s1.g idx).2 } = s3 at m2
    refine ⟨?_, m2⟩
    unfold finDD oDD
    simp only [outside_setState _ (nc hf m2.1 hx)]

theorem nextDD_out (hf : Fits dims (2^31+1)) {eik : Eik F} (he : Confined dims eik) (goal : Nat) {s : DDQM.St F} (hI : IDD dims s) :
    DDQM.next goal eik (oDD J s) = oDD J (DDQM.next goal eik s) ∧ IDD dims (DDQM.next goal eik s) := by
  unfold DDQM.next
  have e1 : (oDD J s).inner = s.inner := rfl
  have e2 : (oDD J s).stop = s.stop := rfl
  rw [e1, e2, low_out]
  split
  · split
    · next hl => exact popBody_out hf he goal hI hl
    · exact ⟨rfl, hI⟩
  · exact ⟨rfl, hI⟩

theorem initDD_out (hf : Fits dims (2^31+1)) {g : Grid F} {pts : List Nat} (hin : Input dims g pts) (th ths : F) :
    DDQM.init (outside J g) pts th ths = oDD J (DDQM.init g pts th ths) ∧ IDD dims (DDQM.init g pts th ths) := by
  obtain ⟨h1, h2⟩ := foldl_out (fun p : Grid F × List Nat => (outside J p.1, p.2)) DDQM.initPoint
    (fun p => p.1.shape = Shape.mk' dims ∧ ∀ x ∈ p.2, x < dims.prod) pts (by
      rintro ⟨g, q⟩ i hi ⟨hs, hq⟩
      have hip := hin.inside i hi
      have h := nc hf hs hip
      have hnb : ∀ j ∈ g.shape.nbrs i, j < dims.prod := by
        intro j hj; rw [hs] at hj; exact FMM.nbr_lt hf hip hj
      unfold DDQM.initPoint
      simp only [outside_shape]
      rw [outside_setValue _ h]
      refine foldl_out (fun p : Grid F × List Nat => (outside J p.1, p.2)) DDQM.initNbr (fun p => p.1.shape = Shape.mk' dims ∧ ∀ x ∈ p.2, x < dims.prod) (g.shape.nbrs i) ?_
        (g.setValue i zero, q) ⟨hs, hq⟩
      rintro ⟨g, q⟩ n hn ⟨hs, hq⟩
      have h := nc hf hs (hnb n hn)
      unfold DDQM.initNbr
      simp only [outside_occ h]
      split
      · exact ⟨rfl, hs, hq⟩
      · exact ⟨by rw [outside_setState _ h], hs, snoc_I hq (hnb n hn)⟩) (FSM.allState .frozen g, []) ⟨hin.shape, by simp⟩
  unfold DDQM.init
  rw [allState_out]
  simp only at h1
  rw [h1]
  exact ⟨rfl, h2.1, h2.2, by simp⟩

end Mem

/-- **C48** for DDQM: confined to the grid, and the queues only contain cells of the grid. -/
theorem C48_DDQM {g : Grid F} {pts : List Nat} (hin : Input dims g pts) (hthin : NoThin dims) (goal : Nat) (th ths : F) {n : Nat} {s : DDQM.St F}
    (hs : FMM.Steps (DDQM.Step goal eikS) n (DDQM.init g pts th ths) s) :
    (∀ x ∈ s.q0 ++ s.q1, x < dims.prod) ∧ ∀ J, FMM.Steps (DDQM.Step goal eikS) n (DDQM.init (outside J g) pts th ths) { s with g := outside J s.g } := by
  have key : ∀ J, FMM.Steps (DDQM.Step goal eikS) n (oDD J (DDQM.init g pts th ths)) (oDD J s) ∧ IDD dims s := by
    intro J
    refine steps_out (oDD J) (IDD dims) ?_ (initDD_out (J := J) hin.fits hin th ths).2 hs
    rintro s t hI ⟨h1, rfl⟩
    obtain ⟨h4, h5⟩ := nextDD_out (J := J) hin.fits (eikS_confined hin.fits hthin) goal hI
    exact ⟨⟨h1, h4.symm⟩, h5⟩
  refine ⟨?_, fun J => ?_⟩
  · intro x hx
    rcases List.mem_append.1 hx with h | h
    · exact (key g.cells).2.2.1 x h
    · exact (key g.cells).2.2.2 x h
  · rw [(initDD_out hin.fits hin th ths).1]; exact (key J).1

namespace Mem

/-! ### FIM -/

def oFIM (J : Nat → Cell F) (s : FIM.St F) : FIM.St F := { s with g := outside J s.g }

def IFIM (dims : List Nat) (s : FIM.St F) : Prop := s.g.shape = Shape.mk' dims ∧ (∀ x ∈ s.before, x < dims.prod) ∧ ∀ x ∈ s.after, x < dims.prod

theorem testNbr_out (hf : Fits dims (2^31+1)) {eik : Eik F} (he : Confined dims eik) {s : FIM.St F} {n : Nat} (hI : IFIM dims s) (hn : n < dims.prod) :
    FIM.testNbr eik (oFIM J s) n = oFIM J (FIM.testNbr eik s n) ∧ IFIM dims (FIM.testNbr eik s n) := by
  have h := nc hf hI.1 hn
  unfold FIM.testNbr oFIM
  simp only [outside_state h, outside_occ h, outside_value h, he J s.g n hI.1 hn, outside_setScratch]
  split
  · exact ⟨rfl, hI⟩
  · split
    · refine ⟨?_, hI.1, snoc_I hI.2.1 hn, hI.2.2⟩
      rw [outside_setValue _ (by simpa using h), outside_setState _ (by simpa using h)]
    · exact ⟨rfl, hI⟩

/-- the last part of `FIM.visit` -/
def finFIM (eik : Eik F) (goal x : Nat) (rest : List Nat) (conv : Bool) (s : FIM.St F) : FIM.St F :=
  if conv then
    let s2 := (s.g.shape.nbrs x).foldl (FIM.testNbr eik) s
    { s2 with g := s2.g.setState x .frozen, after := rest, stop := if x = goal then true else s2.stop }
  else { s with before := s.before ++ [x], after := rest }

theorem visitFIM_eq (E : F) (goal : Nat) (eik : Eik F) (s : FIM.St F) (x : Nat) (rest : List Nat) :
    FIM.visit E goal eik s x rest = finFIM eik goal x rest (le (abs (sub (s.g.value x) (eik s.g x).1)) E) { s with g := (s.g.setScratch (eik s.g x).2).setValue x (eik s.g x).1 } := rfl

theorem visitFIM_out (hf : Fits dims (2^31+1)) {eik : Eik F} (he : Confined dims eik) (E : F) (goal : Nat) {s : FIM.St F} {x : Nat} {rest : List Nat} (hI : IFIM dims s)
    (ha : s.after = x :: rest) :
    FIM.visit E goal eik (oFIM J s) x rest = oFIM J (FIM.visit E goal eik s x rest) ∧ IFIM dims (FIM.visit E goal eik s x rest) := by
  have hx : x < dims.prod := hI.2.2 x (by rw [ha]; simp)
  have hr : ∀ y ∈ rest, y < dims.prod := fun y hy => hI.2.2 y (by rw [ha]; simp [hy])
  have h := nc hf hI.1 hx
  have e1 : (oFIM J s).g.value x = s.g.value x := outside_value h
  have e2 : eik (oFIM J s).g x = eik s.g x := he J s.g x hI.1 hx
  have e3 : ({ oFIM J s with g := ((oFIM J s).g.setScratch (eik s.g x).2).setValue x (eik s.g x).1 } : FIM.St F) =
      oFIM J { s with g := (s.g.setScratch (eik s.g x).2).setValue x (eik s.g x).1 } := by
    unfold oFIM
    simp only
    rw [outside_setScratch, outside_setValue _ (by simpa using h)]
  rw [visitFIM_eq, visitFIM_eq, e1, e2, e3]
  have hI1 : IFIM dims { s with g := (s.g.setScratch (eik s.g x).2).setValue x (eik s.g x).1 } := hI
  generalize ({ s with g := (s.g.setScratch (eik s.g x).2).setValue x (eik s.g x).1 } : FIM.St F) = s1 at hI1
  have hnb : ∀ j ∈ s1.g.shape.nbrs x, j < dims.prod := by
    intro j hj; rw [hI1.1] at hj; exact FMM.nbr_lt hf hx hj
  obtain ⟨h1, h2⟩ := foldl_out (oFIM J) (FIM.testNbr eik) (IFIM dims) (s1.g.shape.nbrs x) (fun a n hn ha => testNbr_out hf he ha (hnb n hn)) s1 hI1
  unfold finFIM
  split
  · have e4 : (oFIM J s1).g.shape = s1.g.shape := rfl
    rw [e4, h1]
    generalize (s1.g.shape.nbrs x).foldl (FIM.testNbr eik) s1 = s2 at h2
    refine ⟨?_, h2.1, h2.2.1, hr⟩
    unfold oFIM
    simp only [outside_setState _ (nc hf h2.1 hx)]
  · exact ⟨rfl, hI1.1, snoc_I hI1.2.1 hx, hr⟩

theorem nextFIM_out (hf : Fits dims (2^31+1)) {eik : Eik F} (he : Confined dims eik) (E : F) (goal : Nat) {s : FIM.St F} (hI : IFIM dims s) :
    FIM.next E goal eik (oFIM J s) = oFIM J (FIM.next E goal eik s) ∧ IFIM dims (FIM.next E goal eik s) := by
  unfold FIM.next
  have e1 : (oFIM J s).after = s.after := rfl
  rw [e1]
  split
  · next ha => exact visitFIM_out hf he E goal hI ha
  · exact ⟨rfl, hI.1, by simp, hI.2.1⟩

theorem initFIM_out (hf : Fits dims (2^31+1)) {g : Grid F} {pts : List Nat} (hin : Input dims g pts) :
    FIM.init (outside J g) [] pts = oFIM J (FIM.init g [] pts) ∧ IFIM dims (FIM.init g [] pts) := by
  obtain ⟨h1, h2⟩ := foldl_out (fun p : Grid F × List Nat => (outside J p.1, p.2)) FIM.initPoint
    (fun p => p.1.shape = Shape.mk' dims ∧ ∀ x ∈ p.2, x < dims.prod) pts (by
      rintro ⟨g, q⟩ i hi ⟨hs, hq⟩
      have hip := hin.inside i hi
      have h := nc hf hs hip
      have hnb : ∀ j ∈ g.shape.nbrs i, j < dims.prod := by
        intro j hj; rw [hs] at hj; exact FMM.nbr_lt hf hip hj
      unfold FIM.initPoint
      simp only [outside_shape]
      rw [outside_setValue _ h, outside_setState _ (by simpa using h)]
      refine foldl_out (fun p : Grid F × List Nat => (outside J p.1, p.2)) FIM.initNbr (fun p => p.1.shape = Shape.mk' dims ∧ ∀ x ∈ p.2, x < dims.prod) (g.shape.nbrs i) ?_
        ((g.setValue i zero).setState i .frozen, q) ⟨hs, hq⟩
      rintro ⟨g, q⟩ n hn ⟨hs, hq⟩
      have h := nc hf hs (hnb n hn)
      unfold FIM.initNbr
      simp only [outside_occ h, outside_state h]
      split
      · exact ⟨by rw [outside_setState _ h], hs, snoc_I hq (hnb n hn)⟩
      · exact ⟨rfl, hs, hq⟩) (g, []) ⟨hin.shape, by simp⟩
  unfold FIM.init
  simp only at h1
  rw [h1]
  exact ⟨rfl, h2.1, h2.2, by simp⟩

end Mem

/-- **C48** for FIM: confined to the grid, and the active list only contains cells of the grid. -/
theorem C48_FIM {g : Grid F} {pts : List Nat} (hin : Input dims g pts) (hthin : NoThin dims) (E : F) (goal : Nat) {n : Nat} {s : FIM.St F}
    (hs : FMM.Steps (FIM.Step E goal eikS) n (FIM.init g [] pts) s) :
    (∀ x ∈ s.before ++ s.after, x < dims.prod) ∧ ∀ J, FMM.Steps (FIM.Step E goal eikS) n (FIM.init (outside J g) [] pts) { s with g := outside J s.g } := by
  have key : ∀ J, FMM.Steps (FIM.Step E goal eikS) n (oFIM J (FIM.init g [] pts)) (oFIM J s) ∧ IFIM dims s := by
    intro J
    refine steps_out (oFIM J) (IFIM dims) ?_ (initFIM_out (J := J) hin.fits hin).2 hs
    rintro s t hI ⟨h1, rfl⟩
    obtain ⟨h4, h5⟩ := nextFIM_out (J := J) hin.fits (eikS_confined hin.fits hthin) E goal hI
    exact ⟨⟨h1, h4.symm⟩, h5⟩
  refine ⟨?_, fun J => ?_⟩
  · intro x hx
    rcases List.mem_append.1 hx with h | h
    · exact (key g.cells).2.2.1 x h
    · exact (key g.cells).2.2.2 x h
  · rw [(initFIM_out hin.fits hin).1]; exact (key J).1

namespace Mem

/-! ### GMM -/

def oGMM (J : Nat → Cell F) (s : GMM.St F) : GMM.St F := { s with g := outside J s.g }

def IGMM (dims : List Nat) (s : GMM.St F) : Prop :=
  s.g.shape = Shape.mk' dims ∧ (∀ x ∈ s.kept, x < dims.prod) ∧ (∀ x ∈ s.rest, x < dims.prod) ∧ ∀ x ∈ s.app, x < dims.prod

theorem skip_out {g : Grid F} {j : Nat} (h : j < g.shape.ncells) : GMM.Skip (outside J g) j ↔ GMM.Skip g j := by
  unfold GMM.Skip; rw [outside_state h, outside_occ h, outside_vel h]

theorem lower_out (hf : Fits dims (2^31+1)) {eik : Eik F} (he : Confined dims eik) {g : Grid F} {j : Nat} (hs : g.shape = Shape.mk' dims) (hj : j < dims.prod) :
    GMM.lower eik (outside J g) j = outside J (GMM.lower eik g j) ∧ (GMM.lower eik g j).shape = Shape.mk' dims := by
  have h := nc hf hs hj
  unfold GMM.lower
  simp only [he J g j hs hj, outside_value h, outside_setScratch]
  split
  · exact ⟨outside_setValue _ (by simpa using h), hs⟩
  · exact ⟨rfl, hs⟩

theorem relax1_out (hf : Fits dims (2^31+1)) {eik : Eik F} (he : Confined dims eik) {g : Grid F} {j : Nat} (hs : g.shape = Shape.mk' dims) (hj : j < dims.prod) :
    GMM.relax1 eik (outside J g) j = outside J (GMM.relax1 eik g j) ∧ (GMM.relax1 eik g j).shape = Shape.mk' dims := by
  unfold GMM.relax1
  simp only [skip_out (nc hf hs hj)]
  split
  · exact ⟨rfl, hs⟩
  · exact lower_out hf he hs hj

theorem pass1_out (hf : Fits dims (2^31+1)) {eik : Eik F} (he : Confined dims eik) (tm : F) {gamma : List Nat} (hg : ∀ x ∈ gamma, x < dims.prod) {g : Grid F}
    (hs : g.shape = Shape.mk' dims) :
    GMM.pass1 eik tm gamma (outside J g) = outside J (GMM.pass1 eik tm gamma g) ∧ (GMM.pass1 eik tm gamma g).shape = Shape.mk' dims := by
  unfold GMM.pass1
  refine foldl_out (outside J) (fun g x => if le (g.value x) tm then (g.shape.nbrs x).foldl (GMM.relax1 eik) g else g) (fun g : Grid F => g.shape = Shape.mk' dims) gamma.reverse ?_ g hs
  intro g x hx hs
  have hxp := hg x (List.mem_reverse.1 hx)
  have h := nc hf hs hxp
  have hnb : ∀ j ∈ g.shape.nbrs x, j < dims.prod := by
    intro j hj; rw [hs] at hj; exact FMM.nbr_lt hf hxp hj
  rw [outside_value h]
  split
  · exact foldl_out (outside J) (GMM.relax1 eik) (fun g : Grid F => g.shape = Shape.mk' dims) (g.shape.nbrs x) (fun a n hn ha => relax1_out hf he ha (hnb n hn)) g hs
  · exact ⟨rfl, hs⟩

theorem relax2_out (hf : Fits dims (2^31+1)) {eik : Eik F} (he : Confined dims eik) {s : GMM.St F} {j : Nat} (hI : IGMM dims s) (hj : j < dims.prod) :
    GMM.relax2 eik (oGMM J s) j = oGMM J (GMM.relax2 eik s j) ∧ IGMM dims (GMM.relax2 eik s j) := by
  obtain ⟨h1, h2⟩ := lower_out (J := J) hf he hI.1 hj
  have h3 := nc hf h2 hj
  unfold GMM.relax2 oGMM
  simp only [skip_out (nc hf hI.1 hj), h1, outside_state h3]
  split
  · exact ⟨rfl, hI⟩
  · split
    · exact ⟨by rw [outside_setState _ h3], h2, hI.2.1, hI.2.2.1, snoc_I hI.2.2.2 hj⟩
    · exact ⟨rfl, h2, hI.2⟩

theorem nextGMM_out (hf : Fits dims (2^31+1)) {eik : Eik F} (he : Confined dims eik) (dt : F) (goal : Nat) {s : GMM.St F} (hI : IGMM dims s) :
    GMM.next dt goal eik (oGMM J s) = oGMM J (GMM.next dt goal eik s) ∧ IGMM dims (GMM.next dt goal eik s) := by
  unfold GMM.next
  have e1 : (oGMM J s).rest = s.rest := rfl
  rw [e1]
  split
  · next x rest hr =>
    have hx : x < dims.prod := hI.2.2.1 x (by rw [hr]; simp)
    have hrest : ∀ y ∈ rest, y < dims.prod := fun y hy => hI.2.2.1 y (by rw [hr]; simp [hy])
    have h := nc hf hI.1 hx
    have hnb : ∀ j ∈ s.g.shape.nbrs x, j < dims.prod := by
      intro j hj; rw [hI.1] at hj; exact FMM.nbr_lt hf hx hj
    obtain ⟨h1, h2⟩ := foldl_out (oGMM J) (GMM.relax2 eik) (IGMM dims) (s.g.shape.nbrs x) (fun a n hn ha => relax2_out hf he ha (hnb n hn)) s hI
    unfold GMM.visit
    have e2 : (oGMM J s).g.value x = s.g.value x := outside_value h
    have e3 : (oGMM J s).g.shape = s.g.shape := rfl
    have e4 : (oGMM J s).tm = s.tm := rfl
    rw [e2, e3, e4, h1]
    generalize (s.g.shape.nbrs x).foldl (GMM.relax2 eik) s = s1 at h2
    split
    · refine ⟨?_, h2.1, h2.2.1, hrest, h2.2.2.2⟩
      unfold oGMM
      simp only [outside_setState _ (nc hf h2.1 hx)]
    · exact ⟨rfl, hI.1, snoc_I hI.2.1 hx, hrest, hI.2.2.2⟩
  · have hg : ∀ x ∈ s.gamma, x < dims.prod := by
      intro x hx
      unfold GMM.St.gamma at hx
      simp only [List.mem_append] at hx
      rcases hx with (h | h) | h
      exacts [hI.2.1 x h, hI.2.2.1 x h, hI.2.2.2 x h]
    obtain ⟨h1, h2⟩ := pass1_out (J := J) hf he (add s.tm dt) hg hI.1
    refine ⟨?_, h2, by simp [GMM.begin], hg, by simp [GMM.begin]⟩
    unfold GMM.begin oGMM
    simp only
    rw [show GMM.St.gamma { s with g := outside J s.g } = s.gamma from rfl, h1]

theorem initGMM_out (hf : Fits dims (2^31+1)) {eik : Eik F} (he : Confined dims eik) {g : Grid F} {pts : List Nat} (hin : Input dims g pts) :
    GMM.init eik (outside J g) [] pts = oGMM J (GMM.init eik g [] pts) ∧ IGMM dims (GMM.init eik g [] pts) := by
  obtain ⟨h1, h2⟩ := foldl_out (fun p : Grid F × List Nat × F => (outside J p.1, p.2)) (GMM.initPoint eik)
    (fun p => p.1.shape = Shape.mk' dims ∧ ∀ x ∈ p.2.1, x < dims.prod) pts (by
      rintro ⟨g, q⟩ i hi ⟨hs, hq⟩
      have hip := hin.inside i hi
      have h := nc hf hs hip
      have hnb : ∀ j ∈ g.shape.nbrs i, j < dims.prod := by
        intro j hj; rw [hs] at hj; exact FMM.nbr_lt hf hip hj
      unfold GMM.initPoint
      simp only [outside_shape]
      rw [outside_setValue _ h, outside_setState _ (by simpa using h)]
      refine foldl_out (fun p : Grid F × List Nat × F => (outside J p.1, p.2)) (GMM.initNbr eik) (fun p => p.1.shape = Shape.mk' dims ∧ ∀ x ∈ p.2.1, x < dims.prod) (g.shape.nbrs i) ?_
        ((g.setValue i zero).setState i .frozen, q) ⟨hs, hq⟩
      rintro ⟨g, q⟩ n hn ⟨hs, hq⟩
      have h := nc hf hs (hnb n hn)
      unfold GMM.initNbr
      simp only [outside_occ h, outside_state h, he J g n hs (hnb n hn), outside_setScratch]
      split
      · exact ⟨rfl, hs, hq⟩
      · refine ⟨?_, hs, snoc_I hq (hnb n hn)⟩
        rw [outside_setValue _ (by simpa using h), outside_setState _ (by simpa using h)]) (g, [], inf) ⟨hin.shape, by simp⟩
  unfold GMM.init
  simp only at h1
  rw [h1]
  exact ⟨rfl, h2.1, h2.2, by simp, by simp⟩

end Mem

/-- **C48** for GMM: confined to the grid, and `gamma_` only contains cells of the grid. -/
theorem C48_GMM {g : Grid F} {pts : List Nat} (hin : Input dims g pts) (hthin : NoThin dims) (dt : F) (goal : Nat) {n : Nat} {s : GMM.St F}
    (hs : FMM.Steps (GMM.Step dt goal eikS) n (GMM.init eikS g [] pts) s) :
    (∀ x ∈ s.gamma, x < dims.prod) ∧ ∀ J, FMM.Steps (GMM.Step dt goal eikS) n (GMM.init eikS (outside J g) [] pts) { s with g := outside J s.g } := by
  have he : Confined dims (eikS : Eik F) := eikS_confined hin.fits hthin
  have key : ∀ J, FMM.Steps (GMM.Step dt goal eikS) n (oGMM J (GMM.init eikS g [] pts)) (oGMM J s) ∧ IGMM dims s := by
    intro J
    refine steps_out (oGMM J) (IGMM dims) ?_ (initGMM_out (J := J) hin.fits he hin).2 hs
    rintro s t hI ⟨h1, rfl⟩
    obtain ⟨h4, h5⟩ := nextGMM_out (J := J) hin.fits he dt goal hI
    exact ⟨⟨h1, h4.symm⟩, h5⟩
  refine ⟨?_, fun J => ?_⟩
  · intro x hx
    unfold GMM.St.gamma at hx
    simp only [List.mem_append] at hx
    rcases hx with (h | h) | h
    exacts [(key g.cells).2.2.1 x h, (key g.cells).2.2.2.1 x h, (key g.cells).2.2.2.2 x h]
  · rw [(initGMM_out hin.fits he hin).1]; exact (key J).1

end FMV
