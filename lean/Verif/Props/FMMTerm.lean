import Verif.Lemmas.Terminate
import Verif.Props.FMMExact
/-!
# C47 (and the SFMM part of C13): duplicated queue entries, released in order, do no harm

The real queue of SFMM does not release them in order (C58, `Verif/Props/SFMM.lean`); what is said here about `StepAny` holds for it all the same.

SFMM (`cfg.dup = true`) pushes a cell again whenever its time improves, so the linear bound of C13 does not apply; termination needs that a
time can be improved only finitely often.
-/
set_option linter.unusedSectionVars false
set_option linter.unusedVariables false
namespace FMV
open Spec Shape XR FMM
variable {F : Type} [Arith F]

/-- strictly fewer OPEN cells, or as many and strictly smaller ranks -/
def Dec {good : F → Prop} (R : Ranked F good) (N : Nat) (s s' : St F) : Prop :=
  openCount N s'.g < openCount N s.g ∨ (openCount N s'.g = openCount N s.g ∧ rkVec R N s'.g < rkVec R N s.g)

def Same {good : F → Prop} (R : Ranked F good) (N : Nat) (s s' : St F) : Prop :=
  openCount N s'.g = openCount N s.g ∧ rkVec R N s'.g = rkVec R N s.g ∧ s'.heap.length = s.heap.length

theorem relax_dec {good : F → Prop} (R : Ranked F good) {N : Nat} {cfg : Cfg F} {eik : Eik F} {s : St F} {j : Nat} (hj : j < N)
    (h1 : good (s.g.value j)) (h2 : s.g.occ j = false → good (eik s.g j).1) :
    Dec R N s (relax cfg eik s j) ∨ Same R N s (relax cfg eik s j) := by
  have hst := relax_state cfg eik s j
  have hmono : ∀ i, i < N → (relax cfg eik s j).g.state i = .opn → s.g.state i = .opn := by
    intro i _ h
    rw [hst] at h
    split at h
    · cases h
    · exact h
  rcases relax_cases cfg eik s j with ⟨_, e⟩ | ⟨ho, hn, hb, e⟩ | ⟨ho, hn, hb, e⟩ | ⟨ho, hn, e⟩
  · right; rw [e]; exact ⟨rfl, rfl, rfl⟩
  · left; right
    have hs : ∀ k, (relax cfg eik s j).g.state k = s.g.state k := by
      intro k; rw [hst, if_neg]; rintro ⟨_, h3, _⟩; rw [hn] at h3; cases h3
    refine ⟨by unfold openCount; simp only [hs], ?_⟩
    have hval : ∀ k, (relax cfg eik s j).g.value k = if k = j then (eik s.g j).1 else s.g.value k := by
      intro k; rw [e]; simp only [Grid.value_setValue, applyHeur_value, Grid.value_setScratch]
    apply rkVec_lt R hj
    · intro k _ hk; rw [hval, if_neg hk]
    · rw [hval, if_pos rfl]; exact R.lt _ _ (h2 ho) h1 hb
  · right
    have hs : ∀ k, (relax cfg eik s j).g.state k = s.g.state k := by
      intro k; rw [hst, if_neg]; rintro ⟨_, h3, _⟩; rw [hn] at h3; cases h3
    refine ⟨by unfold openCount; simp only [hs], ?_, by rw [e]⟩
    funext k; unfold rkVec; rw [e]; simp
  · left; left
    exact openCount_lt hmono hj hn (by rw [hst, if_pos ⟨rfl, hn, ho⟩]; simp)

theorem Dec.trans {good : F → Prop} {R : Ranked F good} {N : Nat} {s t u : St F} (h1 : Dec R N s t ∨ Same R N s t)
    (h2 : Dec R N t u ∨ Same R N t u) : Dec R N s u ∨ Same R N s u := by
  rcases h1 with (h1 | ⟨h1, h1'⟩) | ⟨h1, h1', h1''⟩ <;> rcases h2 with (h2 | ⟨h2, h2'⟩) | ⟨h2, h2', h2''⟩
  · left; left; omega
  · left; left; omega
  · left; left; omega
  · left; left; omega
  · left; right; exact ⟨by omega, h2'.trans h1'⟩
  · left; right; exact ⟨by omega, by rw [h2']; exact h1'⟩
  · left; left; omega
  · left; right; exact ⟨by omega, by rw [← h1']; exact h2'⟩
  · right; exact ⟨by omega, by rw [h2', h1'], by omega⟩

theorem fold_dec {good : F → Prop} (R : Ranked F good) {N : Nat} {cfg : Cfg F} {eik : Eik F} (I : St F → Prop)
    (hI : ∀ s j, j < N → I s → I (relax cfg eik s j))
    (hg : ∀ s j, j < N → I s → good (s.g.value j) ∧ (s.g.occ j = false → good (eik s.g j).1)) :
    ∀ (l : List Nat) (s : St F), (∀ j ∈ l, j < N) → I s →
      Dec R N s (l.foldl (relax cfg eik) s) ∨ Same R N s (l.foldl (relax cfg eik) s) := by
  intro l
  induction l with
  | nil => intro s _ _; right; exact ⟨rfl, rfl, rfl⟩
  | cons j l ih =>
    intro s hl hs
    have hj := hl j (by simp)
    exact Dec.trans (relax_dec R hj (hg s j hj hs).1 (hg s j hj hs).2)
      (ih _ (fun k hk => hl k (by simp [hk])) (hI s j hj hs))

/-- the measure: OPEN cells, ranks of the times, length of the queue -/
def muF {good : F → Prop} (R : Ranked F good) (N : Nat) (s : St F) : ℕ × ((Fin N → WithTop ℕ) × ℕ) :=
  (openCount N s.g, rkVec R N s.g, s.heap.length)

def muRel (N : Nat) : ℕ × ((Fin N → WithTop ℕ) × ℕ) → ℕ × ((Fin N → WithTop ℕ) × ℕ) → Prop :=
  Prod.Lex (· < ·) (Prod.Lex (· < ·) (· < ·))

theorem muRel_wf (N : Nat) : WellFounded (muRel N) :=
  WellFounded.prod_lex wellFounded_lt (WellFounded.prod_lex wellFounded_lt wellFounded_lt)

theorem expand_mu {good : F → Prop} (R : Ranked F good) {N : Nat} {cfg : Cfg F} {eik : Eik F} (I : St F → Prop)
    (hI : ∀ s j, j < N → I s → I (relax cfg eik s j))
    (hg : ∀ s j, j < N → I s → good (s.g.value j) ∧ (s.g.occ j = false → good (eik s.g j).1))
    {s : St F} {x : Nat} (hpop : I (popped s x)) (hx : x ∈ s.heap) (hl : ∀ j ∈ s.g.shape.nbrs x, j < N) :
    muRel N (muF R N (expand cfg eik s x)) (muF R N s) := by
  have h0 : openCount N (popped s x).g ≤ openCount N s.g := by
    apply openCount_mono
    intro i _ h
    simp only [popped, Grid.state_setState] at h
    split at h
    · cases h
    · exact h
  have h1 : rkVec R N (popped s x).g = rkVec R N s.g := by funext k; unfold rkVec; simp [popped]
  have h2 : (popped s x).heap.length < s.heap.length := by
    simp only [popped]; rw [List.length_erase_of_mem hx]
    have := List.length_pos_of_mem hx; omega
  have h3 := fold_dec R (cfg := cfg) (eik := eik) I hI hg (s.g.shape.nbrs x) (popped s x) hl hpop
  unfold muRel muF
  rw [expand_g, expand_heap]
  rcases h3 with (h3 | ⟨h3, h4⟩) | ⟨h3, h4, h5⟩
  · exact Prod.Lex.left _ _ (by omega)
  · rcases Nat.lt_or_ge (openCount N (popped s x).g) (openCount N s.g) with h6 | h6
    · exact Prod.Lex.left _ _ (by omega)
    · rw [show openCount N (List.foldl (relax cfg eik) (popped s x) (s.g.shape.nbrs x)).g = openCount N s.g by omega]
      exact Prod.Lex.right _ (Prod.Lex.left _ _ (by rw [← h1]; exact h4))
  · rcases Nat.lt_or_ge (openCount N (popped s x).g) (openCount N s.g) with h6 | h6
    · exact Prod.Lex.left _ _ (by omega)
    · rw [show openCount N (List.foldl (relax cfg eik) (popped s x) (s.g.shape.nbrs x)).g = openCount N s.g by omega, h4, h1]
      exact Prod.Lex.right _ (Prod.Lex.right _ (by omega))

theorem stepAny_mu (R : Ranked F (fun _ => True)) {dims : List Nat} (hf : Fits dims (2^31+1)) {cfg : Cfg F} {s t : St F}
    (h1 : s.g.shape = Shape.mk' dims ∧ ∀ x ∈ s.heap, x < dims.prod) (hst : StepAny cfg s t) :
    muRel dims.prod (muF R dims.prod t) (muF R dims.prod s) := by
  obtain ⟨_, eik, x, hx, rfl⟩ := hst
  exact expand_mu R (fun _ => True) (fun _ _ _ _ => trivial) (fun _ _ _ _ => ⟨trivial, fun _ => trivial⟩) trivial hx
    (fun j hj => FMM.nbr_lt hf (h1.2 x hx) (by rw [← h1.1]; exact hj))

theorem stepAny_range {dims : List Nat} (hf : Fits dims (2^31+1)) {cfg : Cfg F} (s t : St F)
    (h1 : s.g.shape = Shape.mk' dims ∧ ∀ x ∈ s.heap, x < dims.prod) (hst : StepAny cfg s t) :
    t.g.shape = Shape.mk' dims ∧ ∀ x ∈ t.heap, x < dims.prod := by
  obtain ⟨_, eik, x, hx, rfl⟩ := hst
  refine ⟨by rw [(expand_sameMap cfg eik s x).shape, h1.1], ?_⟩
  apply expand_inv (I := fun t : St F => ∀ y ∈ t.heap, y < dims.prod) cfg eik s x (fun _ _ h => h)
  · intro y hy; exact h1.2 y (List.mem_of_mem_erase hy)
  · intro t j hj ht y hy
    rcases relax_heap_mem hy with h3 | ⟨rfl, _⟩
    · exact ht y h3
    · exact FMM.nbr_lt hf (h1.2 x hx) (by rw [← h1.1]; exact hj)

/-- **C13/C47** (any finite arithmetic in which `isTimeBetterThan` is a strict order, e.g. 64-bit doubles): no run of FMM, SFMM, FMM* or SFMM* is
infinite, whatever the local solver returns and whatever the queue pops. -/
theorem C47_no_infinite_run [Fintype F] (L : MarginLaws F) (cfg : Cfg F) (dims : List Nat) (g : Grid F) (pts : List Nat)
    (hin : Input dims g pts) : ¬ ∃ f : Nat → St F, f 0 = FMM.init cfg g [] pts ∧ ∀ n, StepAny cfg (f n) (f (n+1)) := by
  rintro ⟨f, h0, hf⟩
  refine no_infinite_wf (muRel_wf dims.prod) (muF (Ranked.ofFinite L) dims.prod) (step := StepAny cfg)
    (I := fun s => s.g.shape = Shape.mk' dims ∧ ∀ x ∈ s.heap, x < dims.prod) (stepAny_range hin.fits)
    (fun s t h1 hst => stepAny_mu _ hin.fits h1 hst) ⟨f, ?_, hf⟩
  rw [h0]
  exact FMM.heap_lt (cfg := cfg) hin (.refl _)

/-- **C47** (any such arithmetic): SFMM ends. -/
theorem C47_terminates [Fintype F] (L : MarginLaws F) (cfg : Cfg F) (dims : List Nat) (g : Grid F) (pts : List Nat)
    (hin : Input dims g pts) : ∃ n s, Steps (StepMin cfg) n (FMM.init cfg g [] pts) s ∧ Done s :=
  exists_done_wf (muRel_wf dims.prod) (muF (Ranked.ofFinite L) dims.prod) (step := StepMin cfg) (done := Done)
    (I := fun s => s.g.shape = Shape.mk' dims ∧ ∀ x ∈ s.heap, x < dims.prod)
    (fun s t h1 h2 => stepAny_range hin.fits s t h1 h2.any)
    (fun s t h1 hst => stepAny_mu _ hin.fits h1 hst.any) (fun s _ hd => progress L.toLtLaws cfg s hd) _
    (FMM.heap_lt (cfg := cfg) hin (.refl _))

section exact
variable {dims : List Nat} {g : Grid XR} {h : ℝ} {v : Nat → ℝ} {pts : List Nat}

/-- **C47** (exact arithmetic): SFMM ends, and without a goal it ends with an empty queue and (by `C16_FMM_final`, which covers
`cfg.dup = true`) the accuracy of FMM. -/
theorem C47_SFMM_exact (X : XInput dims g h v pts) (hfr : Fresh g) (ha : StartsApart dims g pts) (U : Nat → WithTop ℝ)
    (hU : X.problem.IsSolution U) (cfg : Cfg XR) (hcfg : cfg.heur = .none) (hgoal : dims.prod ≤ cfg.goal) :
    (¬ ∃ f : Nat → St XR, f 0 = FMM.init cfg g [] pts ∧ ∀ n, StepMin cfg (f n) (f (n+1))) ∧
    ∃ n s, Steps (StepMin cfg) n (FMM.init cfg g [] pts) s ∧ s.heap = [] ∧
      ∀ i, i < dims.prod → U i ≤ toT (s.g.value i) ∧
        toT (s.g.value i) ≤ U i + ((dims.prod * (2 * eps) : ℝ) : WithTop ℝ) := by
  have hdec : ∀ s t : St XR, X.FInv s → StepMin cfg s t →
      muRel dims.prod (muF Ranked.exact dims.prod t) (muF Ranked.exact dims.prod s) := by
    rintro s t I ⟨_, x, ⟨hx, _⟩, rfl⟩
    have hsh : s.g.shape = Shape.mk' dims := I.map.shape.trans X.shape
    refine expand_mu Ranked.exact (I := fun t : St XR => SameMap g t.g ∧ GoodG t.g) ?_ ?_ ?_ hx
      (fun j hj => FMM.nbr_lt X.fits (I.ain.heapN x hx) (by rw [← hsh]; exact hj))
    · intro t j hj ht
      exact ⟨(tv_relax_pos X ht.1 ht.2 hj).1, (tv_relax_pos X ht.1 ht.2 hj).2.1⟩
    · intro t j hj ht
      exact ⟨ht.2 j, fun ho => X.eik_good ht.1 ht.2 hj (by rw [← SameMap.occ_eq ht.1]; exact ho)⟩
    · refine ⟨I.map.trans (popped_sameMap s x), ?_⟩
      intro k; simp only [popped, Grid.value_setState]; exact I.good k
  have hstart := XInput.FInv.start X hfr hcfg
  refine ⟨?_, ?_⟩
  · rintro ⟨f, h0, hf⟩
    exact no_infinite_wf (muRel_wf dims.prod) (muF Ranked.exact dims.prod) (step := StepMin cfg) (I := fun s => X.FInv s)
      (fun s t I hst => XInput.FInv.step X (ha.nonAdj X) hcfg I hst) hdec ⟨f, by rw [h0]; exact hstart, hf⟩
  · obtain ⟨n, s, hs, hd⟩ := exists_done_wf (muRel_wf dims.prod) (muF Ranked.exact dims.prod) (step := StepMin cfg) (done := Done)
      (I := fun s => X.FInv s) (fun s t I hst => XInput.FInv.step X (ha.nonAdj X) hcfg I hst) hdec
      (fun s _ hd => progress XR.ltLaws cfg s hd) _ hstart
    have hemp := C14_no_goal_ends_empty cfg dims g pts ⟨X.fits, X.shape, X.inside⟩ hgoal n s
      (hs.mono (fun _ _ => StepMin.any)) hd
    exact ⟨n, s, hs, hemp, fun i hi => (C16_FMM_final X hfr ha U hU cfg hcfg n s hs hemp i hi).2⟩

end exact
end FMV

/-- A toy finite arithmetic, to show that the hypotheses of the finite-arithmetic theorems can be met. -/
def toyArith : FMV.Arith (Fin 8) where
  zero := 0
  one := 1
  inf := 7
  add a b := if h : a.1 + b.1 < 8 then ⟨a.1 + b.1, h⟩ else 7
  sub a b := ⟨a.1 - b.1, by omega⟩
  mul a b := if h : a.1 * b.1 < 8 then ⟨a.1 * b.1, h⟩ else 7
  div a b := ⟨a.1 / b.1, by have := Nat.div_le_self a.1 b.1; omega⟩
  neg _ := 0
  abs a := a
  sqrt a := ⟨Nat.sqrt a.1, by have := Nat.sqrt_le_self a.1; omega⟩
  lt a b := decide (a < b)
  le a b := decide (a ≤ b)
  eq a b := decide (a = b)
  isInf a := decide (a = 7)
  isNaN _ := false
  ofRat p q := if h : p.toNat / q < 8 then ⟨p.toNat / q, h⟩ else 7
  margin := 1
  floorU32 a := some a.1
  truncInt a := some a.1

/-- non-vacuity: a finite arithmetic with the laws used above -/
example : @FMV.MarginLaws (Fin 8) toyArith :=
  @FMV.MarginLaws.mk (Fin 8) toyArith (@FMV.LtLaws.mk (Fin 8) toyArith (by decide) (by decide)) (by decide)
