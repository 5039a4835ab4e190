import Verif.Lemmas.Reflect
import Verif.Model.GMM
import Verif.Lemmas.Terminate
/-! Runs of GMM over `XQ` are runs over `XR` if all square roots taken are exact. -/
namespace FMV
open XQ
namespace GMM

/-- the state with its numbers in `XR` -/
noncomputable def St.toXR (s : St XQ) : St XR := ⟨s.g.toXR, s.kept, s.rest, s.app, s.tm.toXR, s.stop⟩

theorem toXR_le (a b : XQ) : XR.le (XQ.toXR a) (XQ.toXR b) = XQ.le a b := by
  cases a <;> cases b <;> simp [XQ.toXR, XR.le, XQ.le]

theorem toXR_eq (a b : XQ) : XR.eq (XQ.toXR a) (XQ.toXR b) = XQ.eq a b := by
  cases a <;> cases b <;> simp [XQ.toXR, XR.eq, XQ.eq]

/-- all square roots taken in the initialisation are exact -/
def okInitNbr (s : Grid XQ × List Nat × XQ) (j : Nat) : Bool := decide (s.1.state j = .frozen) || s.1.occ j || okEik s.1 j

/-- the same for a list of neighbours -/
def okInitNbrs : List Nat → Grid XQ × List Nat × XQ → Bool
  | [], _ => true
  | j :: l, s => okInitNbr s j && okInitNbrs l (initNbr eikS s j)

/-- the same for a list of initial points -/
def okInit : List Nat → Grid XQ × List Nat × XQ → Bool
  | [], _ => true
  | i :: l, s => okInitNbrs (s.1.shape.nbrs i) ((s.1.setValue i Arith.zero).setState i .frozen, s.2) && okInit l (initPoint eikS s i)

/-- the triple of the initialisation with its numbers in `XR` -/
noncomputable def triple (s : Grid XQ × List Nat × XQ) : Grid XR × List Nat × XR := (s.1.toXR, s.2.1, s.2.2.toXR)

theorem initNbr_hom (s : Grid XQ × List Nat × XQ) (j : Nat) (hok : okInitNbr s j = true) :
    initNbr eikS (triple s) j = triple (initNbr eikS s j) := by
  unfold initNbr
  show (if s.1.toXR.state j = .frozen ∨ s.1.toXR.occ j = true then _ else _) = _
  rw [Grid.toXR_state, Grid.toXR_occ]
  unfold okInitNbr at hok
  split
  · rfl
  · next hn =>
    push Not at hn
    have hok : okEik s.1 j = true := by simpa [hn.1, hn.2] using hok
    have he : eikS (triple s).1 j = ((eikS s.1 j).1.toXR, (eikS s.1 j).2) := eikS_hom _ _ hok
    rw [he]
    dsimp only [triple]
    have hl : Arith.lt (eikS s.1 j).1.toXR s.2.2.toXR = Arith.lt (eikS s.1 j).1 s.2.2 := toXR_lt _ _
    refine Prod.ext ?_ (Prod.ext rfl ?_)
    · dsimp only
      rw [← Grid.toXR_setScratch, ← Grid.toXR_setValue, ← Grid.toXR_setState]
    · dsimp only
      by_cases h : Arith.lt (eikS s.1 j).1 s.2.2 = true
      · rw [if_pos h]; exact if_pos (hl.trans h)
      · rw [if_neg h]; exact if_neg (fun h' => h (hl.symm.trans h'))

theorem initNbrs_hom (l : List Nat) : ∀ s, okInitNbrs l s = true → l.foldl (initNbr eikS) (triple s) = triple (l.foldl (initNbr eikS) s) := by
  induction l with
  | nil => intro s _; rfl
  | cons j l ih =>
    intro s hok
    unfold okInitNbrs at hok
    rw [Bool.and_eq_true] at hok
    rw [List.foldl_cons, List.foldl_cons, initNbr_hom s j hok.1, ih _ hok.2]

theorem initPoints_hom (l : List Nat) : ∀ s, okInit l s = true → l.foldl (initPoint eikS) (triple s) = triple (l.foldl (initPoint eikS) s) := by
  induction l with
  | nil => intro s _; rfl
  | cons i l ih =>
    intro s hok
    unfold okInit at hok
    rw [Bool.and_eq_true] at hok
    rw [List.foldl_cons, List.foldl_cons, ← ih _ hok.2]
    congr 1
    have := initNbrs_hom _ _ hok.1
    unfold initPoint
    have e : ((triple s).1.setValue i Arith.zero).setState i .frozen = ((s.1.setValue i Arith.zero).setState i .frozen).toXR := by
      rw [Grid.toXR_setState, Grid.toXR_setValue]
      have : (Arith.zero : XQ).toXR = Arith.zero := toXR_zero
      rw [this]; rfl
    rw [e]
    exact this

theorem init_hom (g : Grid XQ) (pts : List Nat) (hok : okInit pts (g, [], Arith.inf) = true) :
    init eikS g.toXR [] pts = (init eikS g [] pts).toXR := by
  unfold init
  have h0 : ((g.toXR, [], Arith.inf) : Grid XR × List Nat × XR) = triple (g, [], Arith.inf) := rfl
  rw [h0, initPoints_hom pts _ hok]
  rfl

theorem skip_hom (g : Grid XQ) (j : Nat) : Skip g.toXR j ↔ Skip g j := by
  unfold Skip
  rw [Grid.toXR_state, Grid.toXR_occ]
  have : Arith.eq (g.toXR.vel j) Arith.zero = Arith.eq (g.vel j) Arith.zero := by
    have h0 : (Arith.zero : XR) = (Arith.zero : XQ).toXR := toXR_zero.symm
    rw [h0]; exact toXR_eq _ _
  rw [this]

/-- all square roots taken while relaxing `j` are exact -/
def okRelax (g : Grid XQ) (j : Nat) : Bool := decide (Skip g j) || okEik g j

theorem lower_hom (g : Grid XQ) (j : Nat) (hok : okEik g j = true) : lower eikS g.toXR j = (lower eikS g j).toXR := by
  have he : eikS g.toXR j = ((eikS g j).1.toXR, (eikS g j).2) := eikS_hom _ _ hok
  have hl : Arith.lt (eikS g j).1.toXR (g.toXR.value j) = Arith.lt (eikS g j).1 (g.value j) := toXR_lt _ _
  unfold lower
  rw [he]
  dsimp only
  rw [hl]
  split <;> rw [← Grid.toXR_setScratch]
  rw [← Grid.toXR_setValue]

theorem relax1_hom (g : Grid XQ) (j : Nat) (hok : okRelax g j = true) : relax1 eikS g.toXR j = (relax1 eikS g j).toXR := by
  unfold relax1
  by_cases h : Skip g j
  · rw [if_pos h, if_pos ((skip_hom g j).2 h)]
  · rw [if_neg h, if_neg (fun h' => h ((skip_hom g j).1 h'))]
    exact lower_hom g j (by simpa [okRelax, h] using hok)

def okFold1 : List Nat → Grid XQ → Bool
  | [], _ => true
  | j :: l, g => okRelax g j && okFold1 l (relax1 eikS g j)

theorem fold1_hom (l : List Nat) : ∀ g, okFold1 l g = true → l.foldl (relax1 eikS) g.toXR = (l.foldl (relax1 eikS) g).toXR := by
  induction l with
  | nil => intro s _; rfl
  | cons j l ih =>
    intro s hok
    unfold okFold1 at hok
    rw [Bool.and_eq_true] at hok
    rw [List.foldl_cons, List.foldl_cons, relax1_hom s j hok.1, ih _ hok.2]

/-- the body of the first pass -/
def body1 {F : Type} [Arith F] (tm : F) (g : Grid F) (x : Nat) : Grid F :=
  if Arith.le (g.value x) tm then (g.shape.nbrs x).foldl (relax1 eikS) g else g

def okPass : XQ → List Nat → Grid XQ → Bool
  | _, [], _ => true
  | tm, x :: l, g => (if Arith.le (g.value x) tm then okFold1 (g.shape.nbrs x) g else true) && okPass tm l (body1 tm g x)

theorem pass_hom (tm : XQ) (l : List Nat) : ∀ g, okPass tm l g = true → l.foldl (body1 tm.toXR) g.toXR = (l.foldl (body1 tm) g).toXR := by
  induction l with
  | nil => intro s _; rfl
  | cons x l ih =>
    intro g hok
    unfold okPass at hok
    rw [Bool.and_eq_true] at hok
    rw [List.foldl_cons, List.foldl_cons, ← ih _ hok.2]
    congr 1
    unfold body1
    have hl : Arith.le (g.toXR.value x) tm.toXR = Arith.le (g.value x) tm := toXR_le _ _
    rw [hl]
    split
    · next h =>
      have := hok.1
      rw [if_pos h] at this
      exact fold1_hom _ _ this
    · rfl

def okFold2 : List Nat → St XQ → Bool
  | [], _ => true
  | j :: l, s => okRelax s.g j && okFold2 l (relax2 eikS s j)

theorem relax2_hom (s : St XQ) (j : Nat) (hok : okRelax s.g j = true) : relax2 eikS s.toXR j = (relax2 eikS s j).toXR := by
  unfold relax2
  by_cases h : Skip s.g j
  · rw [if_pos h, if_pos (show Skip s.toXR.g j from (skip_hom s.g j).2 h)]
  · rw [if_neg h, if_neg (show ¬ Skip s.toXR.g j from fun h' => h ((skip_hom s.g j).1 h'))]
    have := lower_hom s.g j (by simpa [okRelax, h] using hok)
    have this : lower eikS s.toXR.g j = (lower eikS s.g j).toXR := this
    dsimp only
    rw [this, Grid.toXR_state]
    split
    · rw [← Grid.toXR_setState]; rfl
    · rfl

theorem fold2_hom (l : List Nat) : ∀ s, okFold2 l s = true → l.foldl (relax2 eikS) s.toXR = (l.foldl (relax2 eikS) s).toXR := by
  induction l with
  | nil => intro s _; rfl
  | cons j l ih =>
    intro s hok
    unfold okFold2 at hok
    rw [Bool.and_eq_true] at hok
    rw [List.foldl_cons, List.foldl_cons, relax2_hom s j hok.1, ih _ hok.2]

/-- all square roots taken in this step are exact -/
def okNext (dt : XQ) (s : St XQ) : Bool :=
  match s.rest with
  | x :: _ => if Arith.le (s.g.value x) s.tm then okFold2 (s.g.shape.nbrs x) s else true
  | [] => okPass (Arith.add s.tm dt) s.gamma.reverse s.g

theorem next_hom (dt : XQ) (goal : Nat) (s : St XQ) (hok : okNext dt s = true) : next dt.toXR goal eikS s.toXR = (next dt goal eikS s).toXR := by
  obtain ⟨g, kept, rest, app, tm, stop⟩ := s
  cases rest with
  | nil =>
    have hok : okPass (Arith.add tm dt) (kept ++ [] ++ app).reverse g = true := hok
    have := pass_hom (Arith.add tm dt) (kept ++ [] ++ app).reverse g hok
    have e : (Arith.add tm.toXR dt.toXR : XR) = (Arith.add tm dt : XQ).toXR := (toXR_add _ _).symm
    show begin dt.toXR eikS (St.toXR ⟨g, kept, [], app, tm, stop⟩) = (begin dt eikS ⟨g, kept, [], app, tm, stop⟩).toXR
    unfold begin pass1 St.toXR
    dsimp only
    rw [e]
    congr 1
  | cons x rest =>
    have hl : Arith.le (g.toXR.value x) tm.toXR = Arith.le (g.value x) tm := toXR_le _ _
    show visit goal eikS (St.toXR ⟨g, kept, x :: rest, app, tm, stop⟩) x rest = (visit goal eikS ⟨g, kept, x :: rest, app, tm, stop⟩ x rest).toXR
    unfold visit
    show (if Arith.le (g.toXR.value x) tm.toXR = true then _ else _) = _
    rw [hl]
    dsimp only
    by_cases h : Arith.le (g.value x) tm = true
    · rw [if_pos h, if_pos h]
      have hok : okFold2 (g.shape.nbrs x) ⟨g, kept, x :: rest, app, tm, stop⟩ = true := by
        unfold okNext at hok; dsimp only at hok; rwa [if_pos h] at hok
      have := fold2_hom _ _ hok
      show (fun s1 : St XR => ({ s1 with g := s1.g.setState x .frozen, rest := rest, stop := if x = goal then true else s1.stop } : St XR))
        ((g.shape.nbrs x).foldl (relax2 eikS) (St.toXR ⟨g, kept, x :: rest, app, tm, stop⟩)) = _
      rw [this]
      unfold St.toXR
      dsimp only
      rw [Grid.toXR_setState]
    · rw [if_neg h, if_neg h]
      rfl

/-- the state after at most `n` steps -/
def run {F : Type} [Arith F] (dt : F) (goal : Nat) : Nat → St F → St F
  | 0, s => s
  | n + 1, s => if s.rest = [] ∧ (s.stop = true ∨ s.gamma = []) then s else run dt goal n (next dt goal eikS s)

theorem run_steps {F : Type} [Arith F] (dt : F) (goal n : Nat) : ∀ s : St F, ∃ m, FMM.Steps (Step dt goal eikS) m s (run dt goal n s) := by
  induction n with
  | zero => intro s; exact ⟨0, .refl _⟩
  | succ n ih =>
    intro s
    unfold run
    split
    · exact ⟨0, .refl _⟩
    · next h =>
      obtain ⟨m, hm⟩ := ih (next dt goal eikS s)
      exact ⟨m + 1, FMV.Steps.head ⟨h, rfl⟩ hm⟩

/-- all square roots taken in this run are exact -/
def okRun (dt : XQ) (goal : Nat) : Nat → St XQ → Bool
  | 0, _ => true
  | n + 1, s => if s.rest = [] ∧ (s.stop = true ∨ s.gamma = []) then true else okNext dt s && okRun dt goal n (next dt goal eikS s)

theorem run_hom (dt : XQ) (goal n : Nat) : ∀ s, okRun dt goal n s = true → run dt.toXR goal n s.toXR = (run dt goal n s).toXR := by
  induction n with
  | zero => intro s _; rfl
  | succ n ih =>
    intro s hok
    unfold okRun at hok
    unfold run
    by_cases h : s.rest = [] ∧ (s.stop = true ∨ s.gamma = [])
    · rw [if_pos h, if_pos (show s.toXR.rest = [] ∧ (s.toXR.stop = true ∨ s.toXR.gamma = []) from h)]
    · rw [if_neg h, if_neg (show ¬ (s.toXR.rest = [] ∧ (s.toXR.stop = true ∨ s.toXR.gamma = [])) from h)]
      rw [if_neg h, Bool.and_eq_true] at hok
      rw [next_hom dt goal s hok.1, ih _ hok.2]

/-- A run of GMM over `XQ` whose square roots are all exact is the run over `XR`. -/
theorem reflect (dt : XQ) (goal : Nat) (g : Grid XQ) (pts : List Nat) (n : Nat)
    (h0 : okInit pts (g, [], Arith.inf) = true) (hok : okRun dt goal n (init eikS g [] pts) = true) :
    run dt.toXR goal n (init eikS g.toXR [] pts) = (run dt goal n (init eikS g [] pts)).toXR := by
  rw [init_hom g pts h0, run_hom dt goal n _ hok]

end GMM
end FMV
