import Verif.Model.XQ
import Verif.Model.XR
import Verif.Lemmas.GridBasic
import Mathlib.Tactic.NormNum
import Mathlib.Tactic.Push
import Mathlib.Data.Rat.Cast.Order
/-!
# Evaluating runs over the rationals

`XQ.toXR` maps the computable numbers to `XR`; it commutes with all operations of the code except square roots, and with these if they are rational.
-/
namespace FMV
namespace XQ

/-- the number as an element of `XR` -/
noncomputable def toXR : XQ → XR
  | nan => .nan
  | ninf => .ninf
  | fin r => .fin (r : ℝ)
  | pinf => .pinf

theorem toXR_neg (a : XQ) : toXR (neg a) = XR.neg (toXR a) := by
  cases a <;> simp [toXR, neg, XR.neg]

theorem toXR_add (a b : XQ) : toXR (add a b) = XR.add (toXR a) (toXR b) := by
  cases a <;> cases b <;> simp [toXR, add, XR.add]

theorem toXR_infSign (r : Rat) : toXR (infSign r) = XR.infSign (r : ℝ) := by
  unfold infSign XR.infSign
  have e1 : (0 < (r : ℝ)) ↔ 0 < r := Rat.cast_pos
  have e2 : ((r : ℝ) < 0) ↔ r < 0 := Rat.cast_lt_zero
  by_cases h1 : 0 < r
  · rw [if_pos h1, if_pos (e1.2 h1)]; rfl
  · rw [if_neg h1, if_neg (fun h => h1 (e1.1 h))]
    by_cases h2 : r < 0
    · rw [if_pos h2, if_pos (e2.2 h2)]; rfl
    · rw [if_neg h2, if_neg (fun h => h2 (e2.1 h))]; rfl

theorem toXR_mul (a b : XQ) : toXR (mul a b) = XR.mul (toXR a) (toXR b) := by
  cases a <;> cases b <;> simp only [mul]
  all_goals first
    | rfl
    | (rw [toXR_infSign]; simp [toXR, XR.mul])
    | simp [toXR, XR.mul]

theorem toXR_div (a b : XQ) : toXR (div a b) = XR.div (toXR a) (toXR b) := by
  cases a with
  | fin x =>
    cases b with
    | fin y =>
      have e : XR.div (toXR (fin x)) (toXR (fin y)) = if (y : ℝ) = 0 then XR.infSign (x : ℝ) else XR.fin ((x : ℝ) / (y : ℝ)) := rfl
      rw [e]
      unfold div
      dsimp only
      by_cases h : y = 0
      · rw [if_pos h, if_pos (by simp [h]), toXR_infSign]
      · rw [if_neg h, if_neg (by simpa using h)]; simp [toXR]
    | _ => simp [toXR, div, XR.div]
  | pinf =>
    cases b with
    | fin y =>
      simp only [div, toXR, XR.div]
      by_cases h : y < 0
      · rw [if_pos h, if_pos (Rat.cast_lt_zero.2 h)]
      · rw [if_neg h, if_neg (fun h' => h (Rat.cast_lt_zero.1 h'))]
    | _ => simp [toXR, div, XR.div]
  | ninf =>
    cases b with
    | fin y =>
      simp only [div, toXR, XR.div]
      by_cases h : y < 0
      · rw [if_pos h, if_pos (Rat.cast_lt_zero.2 h)]
      · rw [if_neg h, if_neg (fun h' => h (Rat.cast_lt_zero.1 h'))]
    | _ => simp [toXR, div, XR.div]
  | nan => cases b <;> simp [toXR, div, XR.div]

theorem toXR_lt (a b : XQ) : XR.lt (toXR a) (toXR b) = lt a b := by
  cases a <;> cases b <;> simp [toXR, lt, XR.lt]

theorem toXR_sqrt (a : XQ) (h : sqrtOk a = true) : toXR (sqrt a) = XR.sqrt (toXR a) := by
  cases a with
  | fin r =>
    simp only [sqrt, toXR, XR.sqrt]
    by_cases h1 : r < 0
    · rw [if_pos h1, if_pos (Rat.cast_lt_zero.2 h1)]
    · rw [if_neg h1, if_neg (fun h' => h1 (Rat.cast_lt_zero.1 h'))]
      simp only [sqrtOk, Bool.or_eq_true, Bool.and_eq_true, decide_eq_true_eq] at h
      obtain ⟨h2, h3⟩ := h.resolve_left h1
      show XR.fin _ = _
      congr 1
      have e : (r : ℝ) = (ratSqrt r : ℝ) * (ratSqrt r : ℝ) := by exact_mod_cast h3.symm
      rw [e, Real.sqrt_mul_self (by exact_mod_cast h2)]
  | _ => simp [toXR, sqrt, XR.sqrt]

theorem toXR_ofRat (p : Int) (q : Nat) : toXR (Arith.ofRat p q) = Arith.ofRat p q := by
  show XR.fin _ = XR.fin _
  simp

theorem toXR_margin : toXR Arith.margin = Arith.margin := by
  show XR.fin _ = XR.fin _
  simp [XR.eps]

theorem toXR_sub (a b : XQ) : toXR (Arith.sub a b) = Arith.sub (toXR a) (toXR b) := by
  show toXR (add a (neg b)) = XR.add (toXR a) (XR.neg (toXR b))
  rw [toXR_add, toXR_neg]

theorem toXR_zero : toXR (fin 0) = XR.fin 0 := by simp [toXR]

/-! ## the local solver -/

theorem sum_hom (l : List XQ) (s : XQ) :
    (l.map toXR).foldl (fun s t => XR.add s t) (toXR s) = toXR (l.foldl (fun s t => add s t) s) := by
  induction l generalizing s with
  | nil => rfl
  | cons a l ih => simp only [List.map_cons, List.foldl_cons, ← toXR_add, ih]

theorem sum2_hom (l : List XQ) (s : XQ) :
    (l.map toXR).foldl (fun s t => XR.add s (XR.mul t t)) (toXR s) = toXR (l.foldl (fun s t => add s (mul t t)) s) := by
  induction l generalizing s with
  | nil => rfl
  | cons a l ih => simp only [List.map_cons, List.foldl_cons, ← toXR_add, ← toXR_mul, ih]

theorem solveND_hom (h v : XQ) (ts : List XQ) (dim : Nat) (hok : okND h v ts dim = true) :
    solveND (toXR h) (toXR v) (ts.map toXR) dim = toXR (solveND h v ts dim) := by
  unfold solveND
  unfold okND at hok
  split
  · show XR.add _ (XR.div _ _) = toXR (add _ (div _ _))
    rw [toXR_add, toXR_div]
    cases ts with
    | nil => show XR.add (XR.fin 0) _ = XR.add (toXR (fin 0)) _; rw [toXR_zero]
    | cons a l => rfl
  · next hd =>
    rw [if_neg hd] at hok
    dsimp only at hok ⊢
    have e1 : ((ts.map toXR).take dim).foldl (fun s t => Arith.add s t) Arith.zero =
        toXR ((ts.take dim).foldl (fun s t => add s t) (fin 0)) := by
      rw [← List.map_take, ← sum_hom, toXR_zero]; rfl
    have e2 : ((ts.map toXR).take dim).foldl (fun s t => Arith.add s (Arith.mul t t)) Arith.zero =
        toXR ((ts.take dim).foldl (fun s t => add s (mul t t)) (fin 0)) := by
      rw [← List.map_take, ← sum2_hom, toXR_zero]; rfl
    rw [e1, e2]
    change _ = toXR (if lt (Arith.sub (mul (mul (Arith.ofRat (-2) 1) ((ts.take dim).foldl (fun s t => add s t) (fin 0)))
        (mul (Arith.ofRat (-2) 1) ((ts.take dim).foldl (fun s t => add s t) (fin 0))))
        (mul (mul (Arith.ofRat 4 1) (Arith.ofNat dim)) (Arith.sub ((ts.take dim).foldl (fun s t => add s (mul t t)) (fin 0)) (div (mul h h) (mul v v))))) (fin 0) = true then pinf
      else div (add (neg (mul (Arith.ofRat (-2) 1) ((ts.take dim).foldl (fun s t => add s t) (fin 0))))
        (sqrt (Arith.sub (mul (mul (Arith.ofRat (-2) 1) ((ts.take dim).foldl (fun s t => add s t) (fin 0)))
        (mul (Arith.ofRat (-2) 1) ((ts.take dim).foldl (fun s t => add s t) (fin 0))))
        (mul (mul (Arith.ofRat 4 1) (Arith.ofNat dim)) (Arith.sub ((ts.take dim).foldl (fun s t => add s (mul t t)) (fin 0)) (div (mul h h) (mul v v)))))))
        (mul (Arith.ofRat 2 1) (Arith.ofNat dim)))
    generalize (ts.take dim).foldl (fun s t => add s t) (fin 0) = S at *
    generalize (ts.take dim).foldl (fun s t => add s (mul t t)) (fin 0) = Q at *
    have eq : Arith.sub (Arith.mul (Arith.mul (Arith.ofRat (-2) 1) (toXR S)) (Arith.mul (Arith.ofRat (-2) 1) (toXR S)))
          (Arith.mul (Arith.mul (Arith.ofRat 4 1) (Arith.ofNat dim)) (Arith.sub (toXR Q) (Arith.div (Arith.mul (toXR h) (toXR h)) (Arith.mul (toXR v) (toXR v))))) =
        toXR (Arith.sub (mul (mul (Arith.ofRat (-2) 1) S) (mul (Arith.ofRat (-2) 1) S)) (mul (mul (Arith.ofRat 4 1) (Arith.ofNat dim)) (Arith.sub Q (div (mul h h) (mul v v))))) := by
      rw [toXR_sub, toXR_mul, toXR_mul, toXR_mul, toXR_mul, toXR_sub, toXR_div, toXR_mul, toXR_mul]
      unfold Arith.ofNat
      rw [toXR_ofRat, toXR_ofRat, toXR_ofRat]; rfl
    rw [eq]
    generalize Arith.sub (mul (mul (Arith.ofRat (-2) 1) S) (mul (Arith.ofRat (-2) 1) S)) (mul (mul (Arith.ofRat 4 1) (Arith.ofNat dim)) (Arith.sub Q (div (mul h h) (mul v v)))) = D at *
    have elt : Arith.lt (toXR D) (Arith.zero : XR) = lt D (fin 0) := by
      rw [← toXR_lt, toXR_zero]; rfl
    rw [elt]
    split
    · rfl
    · rw [toXR_div, toXR_add, toXR_neg, toXR_mul, toXR_mul, toXR_sqrt _ hok]
      unfold Arith.ofNat
      rw [toXR_ofRat, toXR_ofRat, toXR_ofRat]; rfl

theorem eikLoop_hom (h v : XQ) (ts : List XQ) (r : Nat) : ∀ i, okLoop h v ts i r = true →
    eikLoop (toXR h) (toXR v) (ts.map toXR) i r = toXR (eikLoop h v ts i r) := by
  induction r with
  | zero => intro i hok; exact solveND_hom h v ts i hok
  | succ r ih =>
    intro i hok
    unfold okLoop at hok
    rw [Bool.and_eq_true] at hok
    unfold eikLoop
    dsimp only
    rw [solveND_hom h v ts i hok.1]
    have eg : (ts.map toXR).getD i Arith.zero = toXR (ts.getD i (fin 0)) := by
      have e0 : (Arith.zero : XR) = toXR (fin 0) := toXR_zero.symm
      rw [e0]
      simp only [List.getD_eq_getElem?_getD, List.getElem?_map]
      cases ts[i]? <;> rfl
    rw [eg, ← toXR_sub, ← toXR_margin]
    have : Arith.lt (toXR (Arith.sub (solveND h v ts i) (ts.getD i (fin 0)))) (toXR Arith.margin) =
        lt (Arith.sub (solveND h v ts i) (ts.getD i (fin 0))) Arith.margin := toXR_lt _ _
    rw [this]
    have h2 := hok.2
    change _ = toXR (if lt (Arith.sub (solveND h v ts i) (ts.getD i (fin 0))) Arith.margin = true then _ else _)
    split
    · rfl
    · next hn => rw [if_neg hn] at h2; exact ih _ h2

theorem insert_hom (x : XQ) (l : List XQ) : insertF (toXR x) (l.map toXR) = (insertF x l).map toXR := by
  induction l with
  | nil => rfl
  | cons y l ih =>
    simp only [List.map_cons, insertF]
    have : Arith.lt (toXR y) (toXR x) = Arith.lt y x := toXR_lt y x
    rw [this]
    split
    · rw [ih]; rfl
    · rfl

theorem sort_hom (l : List XQ) : sortF (l.map toXR) = (sortF l).map toXR := by
  induction l with
  | nil => rfl
  | cons y l ih => simp only [List.map_cons, sortF, ih, insert_hom]

theorem solveList_hom (h v : XQ) (ts : List XQ) (hok : okList h v ts = true) :
    solveList (toXR h) (toXR v) (ts.map toXR) = toXR (solveList h v ts) := by
  cases ts with
  | nil => rfl
  | cons a l =>
    have := eikLoop_hom h v (sortF (a :: l)) ((a :: l).length - 1) 1 hok
    rw [← sort_hom] at this
    rw [List.map_cons] at this ⊢
    simp only [solveList]
    rw [List.length_cons, List.length_map]
    exact this

end XQ

open XQ

/-- the cell with its numbers in `XR` -/
noncomputable def Cell.toXR (c : Cell XQ) : Cell XR :=
  { value := c.value.toXR, occupancy := c.occupancy.toXR, hValue := c.hValue.toXR, state := c.state, bucket := c.bucket, index := c.index }

/-- the grid with its numbers in `XR` -/
noncomputable def Grid.toXR (g : Grid XQ) : Grid XR :=
  { shape := g.shape, leaf := g.leaf.toXR, clean := g.clean, cells := fun i => (g.cells i).toXR, occupied := g.occupied, scratch := g.scratch }

namespace Grid
variable (g : Grid XQ) (i : Nat)

theorem toXR_value : g.toXR.value i = (g.value i).toXR := rfl
theorem toXR_vel : g.toXR.vel i = (g.vel i).toXR := rfl
theorem toXR_state : g.toXR.state i = g.state i := rfl
theorem toXR_shape : g.toXR.shape = g.shape := rfl
theorem toXR_scratch : g.toXR.scratch = g.scratch := rfl
theorem toXR_occ : g.toXR.occ i = g.occ i := by
  show XR.lt (g.vel i).toXR Arith.margin = _
  rw [← toXR_margin, toXR_lt]; rfl

theorem toXR_total : (g.toXR.cells i).total = (g.cells i).total.toXR := (XQ.toXR_add _ _).symm

theorem toXR_modify (f : Cell XQ → Cell XQ) (f' : Cell XR → Cell XR) (h : ∀ c, f' c.toXR = (f c).toXR) :
    (g.modify i f).toXR = g.toXR.modify i f' := by
  unfold modify toXR
  congr 1
  funext k
  dsimp only
  split
  · rw [h]
  · rfl

theorem toXR_setValue (x : XQ) : (g.setValue i x).toXR = g.toXR.setValue i x.toXR := toXR_modify _ _ _ _ (fun _ => rfl)
theorem toXR_setState (x : FMState) : (g.setState i x).toXR = g.toXR.setState i x := toXR_modify _ _ _ _ (fun _ => rfl)
theorem toXR_setH (x : XQ) : (g.setH i x).toXR = g.toXR.setH i x.toXR := toXR_modify _ _ _ _ (fun _ => rfl)
theorem toXR_setBucket (x : Nat) : (g.setBucket i x).toXR = g.toXR.setBucket i x := toXR_modify _ _ _ _ (fun _ => rfl)
theorem toXR_setScratch (x : Nat × Nat) : (g.setScratch x).toXR = g.toXR.setScratch x := rfl

theorem toXR_minDim (dim : Nat) :
    g.toXR.getMinValueInDimS i dim = (XQ.toXR (g.getMinValueInDimS i dim).1, (g.getMinValueInDimS i dim).2.toXR) := by
  unfold getMinValueInDimS
  dsimp only
  rw [toXR_shape, toXR_scratch]
  split
  · rfl
  · rw [toXR_value, toXR_value]
    have : ∀ a b : XQ, Arith.lt a.toXR b.toXR = Arith.lt a b := toXR_lt
    rw [this]
    refine Prod.ext ?_ rfl
    dsimp only
    exact (apply_ite XQ.toXR _ _ _).symm

end Grid

theorem XQ.isInf_hom (x : XQ) : Arith.isInf x.toXR = Arith.isInf x := by cases x <;> rfl

theorem collect_hom (idx : Nat) (ds : List Nat) : ∀ (g : Grid XQ) (acc : List XQ),
    collectS idx ds g.toXR (acc.map toXR) = ((collectS idx ds g acc).1.map toXR, (collectS idx ds g acc).2.toXR) := by
  induction ds with
  | nil => intro g acc; rfl
  | cons d ds ih =>
    intro g acc
    unfold collectS
    rw [Grid.toXR_minDim]
    dsimp only
    rw [Grid.toXR_value, XQ.isInf_hom]
    have : ∀ a b : XQ, Arith.lt a.toXR b.toXR = Arith.lt a b := toXR_lt
    rw [this, ← ih]
    congr 1
    split <;> simp

/-- `solveEikonal` over `XQ` is `solveEikonal` over `XR` if all its square roots are exact -/
theorem eikS_hom (g : Grid XQ) (i : Nat) (hok : okEik g i = true) : eikS g.toXR i = ((eikS g i).1.toXR, (eikS g i).2) := by
  have hc := collect_hom i (List.range g.shape.ndims) g []
  rw [List.map_nil] at hc
  have hleaf : ∀ ds (g : Grid XQ) acc, (collectS i ds g acc).2.leaf = g.leaf ∧ (collectS i ds g acc).2.vel i = g.vel i := by
    intro ds
    induction ds with
    | nil => intro g acc; exact ⟨rfl, rfl⟩
    | cons d ds ih =>
      intro g acc
      unfold collectS
      dsimp only
      have := ih (g.getMinValueInDimS i d).2
        (if (!Arith.isInf (g.getMinValueInDimS i d).1 && Arith.lt (g.getMinValueInDimS i d).1 ((g.getMinValueInDimS i d).2.value i)) = true then
          acc ++ [(g.getMinValueInDimS i d).1] else acc)
      refine ⟨this.1.trans ?_, this.2.trans ?_⟩ <;> (unfold Grid.getMinValueInDimS; dsimp only; split <;> rfl)
  have hl := hleaf (List.range g.shape.ndims) g []
  unfold eikS solveEikonalS
  rw [Grid.toXR_shape, hc]
  dsimp only
  refine Prod.ext ?_ rfl
  have h1 : (collectS i (List.range g.shape.ndims) g []).2.toXR.leaf = g.leaf.toXR := congrArg XQ.toXR hl.1
  have h2 : (collectS i (List.range g.shape.ndims) g []).2.toXR.vel i = (g.vel i).toXR := congrArg XQ.toXR hl.2
  rw [h1, h2, hl.1, hl.2]
  exact solveList_hom _ _ _ hok

/-! ## the loop -/
namespace FMM
variable {B : Type}

/-- a run without heuristics -/
def Cfg.plain {F : Type} [Arith F] (dup : Bool) (goal : Nat) : Cfg F := ⟨dup, .none, fun _ => Arith.zero, goal⟩

/-- the state with its numbers in `XR` -/
noncomputable def BSt.toXR (s : BSt XQ B) : BSt XR B := ⟨s.g.toXR, s.b, s.stop⟩

/-- the band does the same with the numbers in `XR` -/
structure BandHom (N : Band XQ B) (N' : Band XR B) : Prop where
  push : ∀ g b c, N'.push g.toXR b c = N.push g b c
  increase : ∀ g b c, N'.increase g.toXR b c = N.increase g b c
  popMinIdx : ∀ g b, N'.popMinIdx g.toXR b = N.popMinIdx g b
  empty : ∀ b, N'.empty b = N.empty b

theorem cmp_hom (g : Grid XQ) : Heap.cmp g.toXR = Heap.cmp g := by
  funext a b
  unfold Heap.cmp
  rw [Grid.toXR_total, Grid.toXR_total]
  exact toXR_lt _ _

theorem pq_hom : BandHom PQ.band PQ.band := by
  refine ⟨?_, ?_, ?_, fun _ => rfl⟩ <;> intros <;> unfold PQ.band <;> dsimp only <;> rw [cmp_hom]

theorem dheap_hom : BandHom DHeap.band DHeap.band := by
  have e : ∀ g : Grid XQ, DHeap.low g.toXR = DHeap.low g := by
    intro g; funext a b; unfold DHeap.low; rw [cmp_hom]
  refine ⟨?_, ?_, ?_, fun _ => rfl⟩ <;> intros <;>
    simp only [DHeap.band, DHeap.push, DHeap.increase, DHeap.popMinIdx, e]

/-- all square roots taken while relaxing `j` are exact -/
def okRelax (s : BSt XQ B) (j : Nat) : Bool := decide (s.g.state j = .frozen) || s.g.occ j || okEik s.g j

/-- all square roots taken while relaxing these neighbours are exact -/
def okFold (N : Band XQ B) (cfg : Cfg XQ) : List Nat → BSt XQ B → Bool
  | [], _ => true
  | j :: l, s => okRelax s j && okFold N cfg l (bRelax N cfg eikS s j)

/-- all square roots taken in this iteration are exact -/
def okStep (N : Band XQ B) (cfg : Cfg XQ) (s : BSt XQ B) : Bool :=
  okFold N cfg (s.g.shape.nbrs (N.popMinIdx s.g s.b).1)
    { s with g := s.g.setState (N.popMinIdx s.g s.b).1 .frozen, b := (N.popMinIdx s.g s.b).2 }

/-- all square roots taken in this run are exact -/
def okRun (N : Band XQ B) (cfg : Cfg XQ) : Nat → BSt XQ B → Bool
  | 0, _ => true
  | n + 1, s => if BDone N s then true else okStep N cfg s && okRun N cfg n (bStep N cfg eikS s)

variable {N : Band XQ B} {N' : Band XR B} (H : BandHom N N') {dup : Bool} {goal : Nat}
include H

theorem relax_hom (s : BSt XQ B) (j : Nat) (hok : okRelax s j = true) :
    bRelax N' (Cfg.plain dup goal) eikS s.toXR j = (bRelax N (Cfg.plain dup goal) eikS s j).toXR := by
  unfold bRelax
  show (if s.g.toXR.state j = .frozen ∨ s.g.toXR.occ j = true then _ else _) = _
  rw [Grid.toXR_state, Grid.toXR_occ]
  unfold okRelax at hok
  split
  · rfl
  · next hn =>
    push Not at hn
    have hok : okEik s.g j = true := by simpa [hn.1, hn.2] using hok
    have hb : Arith.better (eikS s.g j).1.toXR (s.g.toXR.value j) = Arith.better (eikS s.g j).1 (s.g.value j) := by
      unfold Arith.better
      rw [← toXR_margin]
      show XR.lt (XR.add _ _) (s.g.value j).toXR = _
      rw [← toXR_add, toXR_lt]; rfl
    have he : eikS s.toXR.g j = ((eikS s.g j).1.toXR, (eikS s.g j).2) := eikS_hom _ _ hok
    rw [he]
    dsimp only [applyHeur, Cfg.plain]
    by_cases hn : s.g.state j = .narrow
    · rw [if_pos hn, if_pos (show s.toXR.g.state j = .narrow from hn)]
      by_cases hbt : Arith.better (eikS s.g j).1 (s.g.value j) = true
      · rw [if_pos hbt, if_pos (show Arith.better _ (s.toXR.g.value j) = true from hb.trans hbt)]
        dsimp only [BSt.toXR]
        rw [← Grid.toXR_setScratch, ← Grid.toXR_setValue, H.increase]
      · rw [if_neg hbt, if_neg (show ¬ Arith.better _ (s.toXR.g.value j) = true from fun h => hbt (hb.symm.trans h))]
        rfl
    · rw [if_neg hn, if_neg (show ¬ s.toXR.g.state j = .narrow from hn)]
      dsimp only [BSt.toXR]
      rw [← Grid.toXR_setScratch, ← Grid.toXR_setState, ← Grid.toXR_setValue, H.push]

theorem fold_hom (l : List Nat) : ∀ s : BSt XQ B, okFold N (Cfg.plain dup goal) l s = true →
    l.foldl (bRelax N' (Cfg.plain dup goal) eikS) s.toXR = (l.foldl (bRelax N (Cfg.plain dup goal) eikS) s).toXR := by
  induction l with
  | nil => intro s _; rfl
  | cons j l ih =>
    intro s hok
    unfold okFold at hok
    rw [Bool.and_eq_true] at hok
    rw [List.foldl_cons, List.foldl_cons, relax_hom H s j hok.1, ih _ hok.2]

theorem step_hom (s : BSt XQ B) (hok : okStep N (Cfg.plain dup goal) s = true) :
    bStep N' (Cfg.plain dup goal) eikS s.toXR = (bStep N (Cfg.plain dup goal) eikS s).toXR := by
  unfold bStep
  dsimp only
  have e : N'.popMinIdx s.toXR.g s.toXR.b = N.popMinIdx s.g s.b := H.popMinIdx _ _
  rw [e]
  have := fold_hom H _ _ hok
  have e2 : BSt.toXR ({ s with g := s.g.setState (N.popMinIdx s.g s.b).1 .frozen, b := (N.popMinIdx s.g s.b).2 } : BSt XQ B) =
      { s.toXR with g := s.toXR.g.setState (N.popMinIdx s.g s.b).1 .frozen, b := (N.popMinIdx s.g s.b).2 } := by
    unfold BSt.toXR; dsimp only; rw [Grid.toXR_setState]
  rw [e2] at this
  have e3 : s.toXR.g.shape = s.g.shape := rfl
  rw [e3, this]
  rfl

theorem run_hom (n : Nat) : ∀ s : BSt XQ B, okRun N (Cfg.plain dup goal) n s = true →
    bRun N' (Cfg.plain dup goal) eikS n s.toXR = (bRun N (Cfg.plain dup goal) eikS n s).toXR := by
  induction n with
  | zero => intro s _; rfl
  | succ n ih =>
    intro s hok
    unfold okRun at hok
    unfold bRun
    have hd : BDone N' s.toXR ↔ BDone N s := by unfold BDone; rw [H.empty]; exact Iff.rfl
    by_cases h : BDone N s
    · rw [if_pos h, if_pos (hd.2 h)]
    · rw [if_neg h, if_neg (fun h' => h (hd.1 h'))]
      rw [if_neg h, Bool.and_eq_true] at hok
      rw [step_hom H s hok.1, ih _ hok.2]

theorem init_hom (g : Grid XQ) (b0 : B) (pts : List Nat) :
    bInit N' (Cfg.plain dup goal) g.toXR b0 pts = (bInit N (Cfg.plain dup goal) g b0 pts).toXR := by
  unfold bInit
  have : (⟨g.toXR, b0, false⟩ : BSt XR B) = BSt.toXR ⟨g, b0, false⟩ := rfl
  rw [this]
  generalize (⟨g, b0, false⟩ : BSt XQ B) = s
  induction pts generalizing s with
  | nil => rfl
  | cons p pts ih =>
    rw [List.foldl_cons, List.foldl_cons, ← ih]
    congr 1
    unfold bInitPoint
    dsimp only [BSt.toXR, applyHeur, Cfg.plain]
    have e : (s.g.setValue p Arith.zero).toXR = s.g.toXR.setValue p Arith.zero := by
      rw [Grid.toXR_setValue]; congr 1; exact toXR_zero
    rw [← e, H.push]

/-- A run over `XQ` whose square roots are all exact is the run over `XR`. -/
theorem reflect (g : Grid XQ) (b0 : B) (pts : List Nat) (n : Nat)
    (hok : okRun N (Cfg.plain dup goal) n (bInit N (Cfg.plain dup goal) g b0 pts) = true) :
    bRun N' (Cfg.plain dup goal) eikS n (bInit N' (Cfg.plain dup goal) g.toXR b0 pts) =
      (bRun N (Cfg.plain dup goal) eikS n (bInit N (Cfg.plain dup goal) g b0 pts)).toXR := by
  rw [init_hom H, run_hom H n _ hok]

end FMM
end FMV
