import Verif.Props.Memory
import Verif.Props.Heuristic
import Verif.Props.Eikonal
import Verif.Model.GD
/-
C48 for UFMM and its queue, and what goes wrong in thin grids.
-/
set_option linter.unusedSectionVars false
set_option linter.unusedVariables false
namespace FMV
open Spec Arith Shape Mem
variable {F : Type} [Arith F] {J : Nat → Cell F} {dims : List Nat}

namespace Spec
/-- The same queue with `K` in place of what lies beyond its last bucket. -/
def outsideQ (K : Nat → List Nat) (q : UQ F) : UQ F := { q with tab := fun k => if k < q.size then q.tab k else K k }
end Spec

namespace Mem
variable {K : Nat → List Nat}

/-- the queue is in order: there are buckets, the first one exists, and the elements are cells of the grid -/
def IQ (dims : List Nat) (q : UQ F) : Prop := 0 < q.size ∧ q.i0 < q.size ∧ ∀ k < q.size, ∀ x ∈ q.tab k, x < dims.prod

theorem bucketOf_lt (q : UQ F) (h : 0 < q.size) (t : F) : q.bucketOf t < q.size := Nat.mod_lt _ h

theorem cons_out (q : UQ F) {i : Nat} (hi : i < q.size) (e : Nat) : (outsideQ K q).cons i e = outsideQ K (q.cons i e) := by
  unfold UQ.cons outsideQ
  simp only
  congr 1
  funext k
  by_cases hk : k = i
  · subst hk; simp [hi]
  · simp [hk]

theorem cons_I {q : UQ F} (hI : IQ dims q) (i : Nat) {e : Nat} (he : e < dims.prod) : IQ dims (q.cons i e) := by
  refine ⟨hI.1, hI.2.1, ?_⟩
  intro k hk x hx
  show x < _
  have : x ∈ (if k = i then e :: q.tab k else q.tab k) := hx
  split at this
  · rcases List.mem_cons.1 this with rfl | h
    exacts [he, hI.2.2 k hk x h]
  · exact hI.2.2 k hk x this

theorem push_out {q : UQ F} (hI : IQ dims q) {e : Nat} (he : e < dims.prod) (t : F) :
    (outsideQ K q).push e t = (outsideQ K (q.push e t).1, (q.push e t).2) ∧ IQ dims (q.push e t).1 ∧ (q.push e t).2 < q.size ∧ (q.push e t).1.size = q.size := by
  unfold UQ.push
  have e1 : (outsideQ K q).nb = q.nb := rfl
  have e2 : (outsideQ K q).bucketOf t = q.bucketOf t := rfl
  rw [e1, e2]
  split
  · have c := cons_out (K := K) ({ q with t0 := t, i0 := 0, nb := 1 } : UQ F) (i := 0) hI.1 e
    exact ⟨by rw [← c]; rfl, cons_I (q := ({ q with t0 := t, i0 := 0, nb := 1 } : UQ F)) ⟨hI.1, hI.1, hI.2.2⟩ 0 he, hI.1, rfl⟩
  · have c := cons_out (K := K) ({ q with nb := q.nb + 1 } : UQ F) (i := q.bucketOf t) (bucketOf_lt q hI.1 t) e
    exact ⟨by rw [← c]; rfl, cons_I (q := ({ q with nb := q.nb + 1 } : UQ F)) ⟨hI.1, hI.2.1, hI.2.2⟩ _ he, bucketOf_lt q hI.1 t, rfl⟩

theorem shift_out (q : UQ F) : (outsideQ K q).shift = outsideQ K q.shift := rfl
theorem shift_I {q : UQ F} (hI : IQ dims q) : IQ dims q.shift := ⟨hI.1, Nat.mod_lt _ hI.1, hI.2.2⟩

theorem advance_out (n : Nat) : ∀ {q : UQ F}, IQ dims q → (outsideQ K q).advance n = outsideQ K (q.advance n) ∧ IQ dims (q.advance n) ∧ (q.advance n).size = q.size := by
  induction n with
  | zero => intro q hI; exact ⟨rfl, hI, rfl⟩
  | succ n ih =>
    intro q hI
    unfold UQ.advance
    have e1 : (outsideQ K q).tab (outsideQ K q).i0 = q.tab q.i0 := by
      show (if q.i0 < q.size then q.tab q.i0 else K q.i0) = _
      rw [if_pos hI.2.1]
    rw [e1]
    split
    · obtain ⟨h1, h2, h3⟩ := ih (shift_I hI)
      exact ⟨by rw [shift_out, h1], h2, h3⟩
    · exact ⟨rfl, hI, rfl⟩

theorem settle_out {q : UQ F} (hI : IQ dims q) : (outsideQ K q).settle = outsideQ K q.settle ∧ IQ dims q.settle ∧ q.settle.size = q.size :=
  advance_out q.size hI

theorem top_out {q : UQ F} (hI : IQ dims q) : (outsideQ K q).top = (outsideQ K q.top.1, q.top.2) ∧ IQ dims q.top.1 ∧ q.top.1.size = q.size ∧
    ∀ x, q.top.2 = some x → x < dims.prod := by
  obtain ⟨h1, h2, h3⟩ := settle_out (K := K) hI
  unfold UQ.top
  refine ⟨?_, h2, h3, ?_⟩
  · rw [h1]
    have : (outsideQ K q.settle).tab (outsideQ K q.settle).i0 = q.settle.tab q.settle.i0 := by
      show (if q.settle.i0 < q.settle.size then q.settle.tab q.settle.i0 else K q.settle.i0) = _
      rw [if_pos h2.2.1]
    rw [this]
  · intro x hx
    exact h2.2.2 _ h2.2.1 x (List.mem_of_getLast? hx)

theorem pop_out {q : UQ F} (hI : IQ dims q) : (outsideQ K q).pop = outsideQ K q.pop ∧ IQ dims q.pop ∧ q.pop.size = q.size := by
  obtain ⟨h1, h2, h3⟩ := settle_out (K := K) hI
  unfold UQ.pop
  have e1 : (outsideQ K q).nb = q.nb := rfl
  rw [e1]
  split
  · exact ⟨rfl, hI, rfl⟩
  · simp only [h1]
    refine ⟨?_, ⟨h2.1, h2.2.1, ?_⟩, h3⟩
    · unfold outsideQ
      simp only
      congr 1
      funext k
      by_cases hk : k = q.settle.i0
      · subst hk; simp [h2.2.1]
      · simp [hk]
    · intro k hk x hx
      have : x ∈ (if k = q.settle.i0 then (q.settle.tab k).dropLast else q.settle.tab k) := hx
      split at this
      · exact h2.2.2 k hk x (List.mem_of_mem_dropLast this)
      · exact h2.2.2 k hk x this

theorem increase_out {q : UQ F} (hI : IQ dims q) {e b : Nat} (he : e < dims.prod) (hb : b < q.size) (t : F) :
    (outsideQ K q).increase e b t = (outsideQ K (q.increase e b t).1, (q.increase e b t).2) ∧ IQ dims (q.increase e b t).1 ∧ (q.increase e b t).2 < q.size ∧
      (q.increase e b t).1.size = q.size := by
  unfold UQ.increase
  have e2 : (outsideQ K q).bucketOf t = q.bucketOf t := rfl
  simp only [e2]
  have hbk := bucketOf_lt q hI.1 t
  split
  · have c := cons_out (K := K) ({ q with tab := fun k => if k = b then (q.tab k).filter (· ≠ e) else q.tab k } : UQ F) (i := q.bucketOf t) hbk e
    refine ⟨?_, cons_I (q := ({ q with tab := fun k => if k = b then (q.tab k).filter (· ≠ e) else q.tab k } : UQ F)) ⟨hI.1, hI.2.1, ?_⟩ _ he, hbk, rfl⟩
    · rw [← c]
      congr 2
      unfold outsideQ
      simp only
      congr 1
      funext k
      by_cases hk : k = b
      · subst hk; simp [hb]
      · simp [hk]
    · intro k hk x hx
      have : x ∈ (if k = b then (q.tab k).filter (· ≠ e) else q.tab k) := hx
      split at this
      · exact hI.2.2 k hk x (List.mem_filter.1 this).1
      · exact hI.2.2 k hk x this
  · exact ⟨rfl, hI, hbk, rfl⟩

/-- the state with other things beyond the grid and beyond the buckets -/
def oU (J : Nat → Cell F) (K : Nat → List Nat) (s : UFMM.St F) : UFMM.St F := { s with g := outside J s.g, q := outsideQ K s.q }

def IU (dims : List Nat) (s : UFMM.St F) : Prop := s.g.shape = Shape.mk' dims ∧ IQ dims s.q ∧ ∀ i < dims.prod, (s.g.cells i).bucket < s.q.size

theorem bucket_setBucket {g : Grid F} {i k b m : Nat} (hb : b < m) (h : (g.cells k).bucket < m) : ((g.setBucket i b).cells k).bucket < m := by
  unfold Grid.setBucket; rw [Grid.modify_cells]; split <;> simp_all

theorem bucket_setValue (g : Grid F) (i k : Nat) (v : F) : ((g.setValue i v).cells k).bucket = (g.cells k).bucket := by
  unfold Grid.setValue; rw [Grid.modify_cells]; split <;> rfl
theorem bucket_setState (g : Grid F) (i k : Nat) (v) : ((g.setState i v).cells k).bucket = (g.cells k).bucket := by
  unfold Grid.setState; rw [Grid.modify_cells]; split <;> rfl

theorem pushU_out (hf : Fits dims (2^31+1)) {s : UFMM.St F} {i : Nat} (hI : IU dims s) (hi : i < dims.prod) :
    UFMM.push (oU J K s) i = oU J K (UFMM.push s i) ∧ IU dims (UFMM.push s i) := by
  have h := nc hf hI.1 hi
  obtain ⟨p1, p2, p3, p4⟩ := push_out (K := K) hI.2.1 hi (s.g.value i)
  unfold UFMM.push oU
  simp only [outside_value h, p1, outside_setBucket _ h]
  exact ⟨trivial, hI.1, p2, fun k hk => bucket_setBucket (by rw [p4]; exact p3) (by rw [p4]; exact hI.2.2 k hk)⟩

theorem increaseU_out (hf : Fits dims (2^31+1)) {s : UFMM.St F} {i : Nat} (hI : IU dims s) (hi : i < dims.prod) :
    UFMM.increase (oU J K s) i = oU J K (UFMM.increase s i) ∧ IU dims (UFMM.increase s i) := by
  have h := nc hf hI.1 hi
  obtain ⟨p1, p2, p3, p4⟩ := increase_out (K := K) hI.2.1 hi (hI.2.2 i hi) (s.g.value i)
  unfold UFMM.increase oU
  simp only [outside_value h, outside_cells h, p1, outside_setBucket _ h]
  exact ⟨trivial, hI.1, p2, fun k hk => bucket_setBucket (by rw [p4]; exact p3) (by rw [p4]; exact hI.2.2 k hk)⟩

theorem relaxU_out (hf : Fits dims (2^31+1)) {eik : Eik F} (he : Confined dims eik) {s : UFMM.St F} {j : Nat} (hI : IU dims s) (hj : j < dims.prod) :
    UFMM.relax eik (oU J K s) j = oU J K (UFMM.relax eik s j) ∧ IU dims (UFMM.relax eik s j) := by
  have h := nc hf hI.1 hj
  have e1 : (oU J K s).g.state j = s.g.state j := outside_state h
  have e2 : (oU J K s).g.occ j = s.g.occ j := outside_occ h
  have e3 : (oU J K s).g.value j = s.g.value j := outside_value h
  have e4 : eik (oU J K s).g j = eik s.g j := he J s.g j hI.1 hj
  unfold UFMM.relax
  rw [e1, e2, e3, e4]
  split
  · exact ⟨rfl, hI⟩
  · dsimp only
    split
    · split
      · have e5 : ({ oU J K s with g := ((oU J K s).g.setScratch (eik s.g j).2).setValue j (eik s.g j).1 } : UFMM.St F) =
            oU J K { s with g := (s.g.setScratch (eik s.g j).2).setValue j (eik s.g j).1 } := by
          unfold oU; simp only; rw [outside_setScratch, outside_setValue _ (by simpa using h)]
        rw [e5]
        exact increaseU_out hf ⟨hI.1, hI.2.1, fun k hk => by simp only [bucket_setValue]; exact hI.2.2 k hk⟩ hj
      · exact ⟨rfl, hI⟩
    · have e5 : ({ oU J K s with g := (((oU J K s).g.setScratch (eik s.g j).2).setState j .narrow).setValue j (eik s.g j).1 } : UFMM.St F) =
          oU J K { s with g := ((s.g.setScratch (eik s.g j).2).setState j .narrow).setValue j (eik s.g j).1 } := by
        unfold oU; simp only; rw [outside_setScratch, outside_setState _ (by simpa using h), outside_setValue _ (by simpa using h)]
      rw [e5]
      exact pushU_out hf ⟨hI.1, hI.2.1, fun k hk => by simp only [bucket_setValue, bucket_setState]; exact hI.2.2 k hk⟩ hj

theorem expandU_out (hf : Fits dims (2^31+1)) {eik : Eik F} (he : Confined dims eik) (goal : Nat) {s : UFMM.St F} {x : Nat} (hI : IU dims s) (hx : x < dims.prod) :
    UFMM.expand goal eik (oU J K s) x = oU J K (UFMM.expand goal eik s x) ∧ IU dims (UFMM.expand goal eik s x) := by
  have h := nc hf hI.1 hx
  have hnb : ∀ j ∈ s.g.shape.nbrs x, j < dims.prod := by
    intro j hj; rw [hI.1] at hj; exact FMM.nbr_lt hf hx hj
  obtain ⟨h1, h2⟩ := foldl_out (oU J K) (UFMM.relax eik) (IU dims) (s.g.shape.nbrs x) (fun t a ha ht => relaxU_out hf he ht (hnb a ha))
    { s with g := s.g.setState x .frozen } ⟨hI.1, hI.2.1, fun k hk => by simp only [bucket_setState]; exact hI.2.2 k hk⟩
  unfold UFMM.expand
  have e : ({ oU J K s with g := (oU J K s).g.setState x .frozen } : UFMM.St F) = oU J K { s with g := s.g.setState x .frozen } := by
    unfold oU; simp only [outside_setState _ h]
  have e2 : (oU J K s).g.shape = s.g.shape := rfl
  rw [e, e2, h1]
  generalize (s.g.shape.nbrs x).foldl (UFMM.relax eik) { s with g := s.g.setState x .frozen } = s1 at h2
  obtain ⟨p1, p2, p3⟩ := pop_out (K := K) h2.2.1
  refine ⟨?_, h2.1, p2, fun k hk => by simp only [p3]; exact h2.2.2 k hk⟩
  unfold oU
  simp only [p1]

theorem initU_out (hf : Fits dims (2^31+1)) {g : Grid F} {pts : List Nat} (hin : Input dims g pts) {q : UQ F} (hq : IQ dims q)
    (hb : ∀ i < dims.prod, (g.cells i).bucket < q.size) :
    UFMM.init (outside J g) (outsideQ K q) pts = oU J K (UFMM.init g q pts) ∧ IU dims (UFMM.init g q pts) := by
  refine foldl_out (oU J K) (fun s i => UFMM.push { s with g := s.g.setValue i zero } i) (IU dims) pts ?_ { g := g, q := q, stop := false } ⟨hin.shape, hq, hb⟩
  intro s i hi hI
  have hip := hin.inside i hi
  have h := nc hf hI.1 hip
  have e : ({ oU J K s with g := (oU J K s).g.setValue i zero } : UFMM.St F) = oU J K { s with g := s.g.setValue i zero } := by
    unfold oU; simp only [outside_setValue _ h]
  simp only [e]
  exact pushU_out hf ⟨hI.1, hI.2.1, fun k hk => by simp only [bucket_setValue]; exact hI.2.2 k hk⟩ hip

end Mem

/-- **C48** for UFMM: a run is confined to the cells of the grid and to the buckets of the queue, and the queue only contains cells of the grid.  `q` is any empty queue
with at least one bucket; the bucket numbers stored in the cells are those of a fresh grid (or anything below the number of buckets). -/
theorem C48_UFMM {g : Grid F} {pts : List Nat} (hin : Input dims g pts) (hthin : NoThin dims) (goal : Nat) {q : UQ F} (hsize : 0 < q.size) (hi0 : q.i0 < q.size)
    (hempty : ∀ k < q.size, q.tab k = []) (hb : ∀ i < dims.prod, (g.cells i).bucket < q.size) {n : Nat} {s : UFMM.St F}
    (hs : FMM.Steps (UFMM.Step goal eikS) n (UFMM.init g q pts) s) :
    s.q.i0 < s.q.size ∧ (∀ k < s.q.size, ∀ x ∈ s.q.tab k, x < dims.prod) ∧ (∀ i < dims.prod, (s.g.cells i).bucket < s.q.size) ∧
    ∀ J K, FMM.Steps (UFMM.Step goal eikS) n (UFMM.init (outside J g) (outsideQ K q) pts) { s with g := outside J s.g, q := outsideQ K s.q } := by
  have he : Confined dims (eikS : Eik F) := eikS_confined hin.fits hthin
  have hq : IQ dims q := ⟨hsize, hi0, fun k hk x hx => by rw [hempty k hk] at hx; simp at hx⟩
  have key : ∀ J K, FMM.Steps (UFMM.Step goal eikS) n (oU J K (UFMM.init g q pts)) (oU J K s) ∧ IU dims s := by
    intro J K
    refine steps_out (oU J K) (IU dims) ?_ (initU_out (J := J) (K := K) hin.fits hin hq hb).2 hs
    rintro s t hI ⟨h1, x, hx, rfl⟩
    obtain ⟨t1, t2, t3, t4⟩ := top_out (K := K) hI.2.1
    have hI' : IU dims { s with q := s.q.top.1 } := ⟨hI.1, t2, fun k hk => by simp only [t3]; exact hI.2.2 k hk⟩
    obtain ⟨h4, h5⟩ := expandU_out (J := J) (K := K) hin.fits he goal hI' (t4 x hx)
    refine ⟨⟨h1, x, ?_, ?_⟩, h5⟩
    · show ((outsideQ K s.q).top).2 = some x
      rw [t1]; exact hx
    · rw [← h4]
      have e : ({ oU J K s with q := (oU J K s).q.top.1 } : UFMM.St F) = oU J K { s with q := s.q.top.1 } := by
        unfold oU; simp only [t1]
      rw [e]
  have k0 := (key g.cells q.tab).2
  refine ⟨k0.2.1.2.1, k0.2.1.2.2, k0.2.2, fun J K => ?_⟩
  rw [(initU_out hin.fits hin hq hb).1]; exact (key J K).1

/-- The hypothesis of C48 on thin grids is needed: in a new 1 x 3 grid the buffer that holds the neighbours is uninitialised (here: 99, 99), the first direction has no
neighbours, and the first call to `solveEikonal` reads the arrival time of "cell 99" of a grid of 3 cells.  What it finds there decides the result. -/
theorem C48_refuted_thin :
    let g : Grid XR := Grid.create [1,3] (XR.fin 1) (99,99)
    g.size = 3 ∧
    (eikS (outside (fun _ => { (Cell.default : Cell XR) with value := XR.fin 5 }) g) 1).1 = XR.fin 6 ∧
    (eikS (outside (fun _ => (Cell.default : Cell XR)) g) 1).1 = XR.pinf := by
  intro g
  have e0 : (Shape.mk' [1,3]).nbrsDim 1 0 = [] := by decide
  have e1 : (Shape.mk' [1,3]).nbrsDim 1 1 = [0,2] := by decide
  have en : (Shape.mk' [1,3]).ndims = 2 := rfl
  have enc : (Shape.mk' [1,3]).ncells = 3 := by decide
  have hr : List.range 2 = [0, 1] := by decide
  have hi0 : Arith.isInf (XR.fin 5) = false := rfl
  have hi1 : Arith.isInf (XR.pinf) = true := rfl
  have hi2 : (Arith.inf : XR) = XR.pinf := rfl
  have hlt : Arith.lt (XR.fin 5 : XR) XR.pinf = true := rfl
  have hlt2 : Arith.lt (XR.fin 5 : XR) (XR.fin 5) = false := by show decide ((5:ℝ) < 5) = false; simp
  have hlt3 : Arith.lt (XR.pinf : XR) (XR.pinf) = false := rfl
  refine ⟨enc, ?_, ?_⟩
  · have hgoal : (eikS (outside (fun _ => { (Cell.default : Cell XR) with value := XR.fin 5 }) g) 1).1 = solveList (XR.fin 1) (XR.fin 1) [XR.fin 5] := by
      unfold eikS solveEikonalS
      simp only [g, outside, Grid.create, Grid.resize, en, hr, collectS, Grid.getMinValueInDimS, e0, e1, Grid.value, Grid.vel]
      simp [e0, e1, enc, hi0, hi1, hi2, hlt, hlt2, hlt3, Cell.default, Arith.one]
    rw [hgoal]
    show XR.add (XR.fin 5) (XR.div (XR.fin 1) (XR.fin 1)) = _
    simp [XR.add, XR.div]; norm_num
  · unfold eikS solveEikonalS
    simp only [g, outside, Grid.create, Grid.resize, en, hr, collectS, Grid.getMinValueInDimS, e0, e1, Grid.value, Grid.vel]
    simp [e0, e1, enc, hi0, hi1, hi2, hlt, hlt2, hlt3, Cell.default, solveList]

/-- the hypotheses of C48 are met by a new grid and the queue of UFMM's default constructor -/
example : Input [3,2] (Grid.create [3,2] (XR.fin 1) (99,99)) [0,5] ∧ NoThin [3,2] ∧ 0 < (UQ.create 1000 (XR.fin 2) (fun _ => 0)).size ∧
    (∀ k < 1000, (UQ.create 1000 (XR.fin 2) (fun _ => 0)).tab k = []) ∧
    (∀ i < [3,2].prod, ((Grid.create [3,2] (XR.fin 1) (99,99)).cells i).bucket < 1000) :=
  ⟨⟨⟨by decide, by decide, by decide⟩, rfl, by decide⟩, by unfold NoThin; decide, by decide, fun _ _ => rfl, fun _ _ => by show 0 < 1000; decide⟩

/-! ### The local array of `GradientDescent::apply` -/

namespace GD

theorem put_length {a b : List Nat} {i v : Nat} (h : put a i v = some b) : b.length = a.length ∧ i < a.length := by
  unfold put at h; split at h
  · rename_i hi; cases h; exact ⟨by simp, hi⟩
  · cases h

theorem fillLoop_some {dims : List Nat} : ∀ (n i : Nat) (a b : List Nat), fillLoop dims n i a = some b → n = 0 ∨ i + n ≤ a.length
  | 0, _, _, _, _ => Or.inl rfl
  | n + 1, i, a, b, h => by
    unfold fillLoop at h
    split at h
    · cases h
    · split at h
      · cases h
      · rename_i c hc
        obtain ⟨h1, h2⟩ := put_length hc
        rcases fillLoop_some n (i + 1) c b h with rfl | h3
        · exact Or.inr (by omega)
        · exact Or.inr (by omega)

end GD

/-- **C48** is false of gradient descent: whatever the grid (with at least two dimensions), the initialisation of the local array `d_`, declared with `ndims - 1` elements,
accesses an element that does not exist.  It happens before anything is read, in every call. -/
theorem C48_refuted_gradient (dims a : List Nat) (h2 : 2 ≤ dims.length) (ha : a.length = dims.length - 1) : GD.fillD dims a = none := by
  unfold GD.fillD
  split
  · rfl
  · rename_i b hb
    obtain ⟨h1, _⟩ := GD.put_length hb
    cases h : GD.fillLoop dims (dims.length - 1) 1 b with
    | none => rfl
    | some c =>
      rcases GD.fillLoop_some _ _ _ _ h with h0 | h0 <;> omega

/-- with one more element the same code fills in the distances between neighbours -/
example : GD.fillD [3,2,4] [7,7,7] = some [3,6,24] ∧ GD.fillD [3,2,4] [7,7] = none := by decide

end FMV
