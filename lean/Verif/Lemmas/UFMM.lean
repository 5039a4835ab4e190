import Verif.Lemmas.UQ
import Verif.Props.FMMExact
/-! UFMM is an instance of FMM with some pop order (as long as no cell is queued twice). -/
set_option linter.unusedSectionVars false
set_option linter.unusedVariables false
namespace FMV
open Arith Spec Shape
variable {F : Type} [Arith F]

/-- the grid without the bucket numbers -/
def Grid.nob (g : Grid F) : Grid F := { g with cells := fun k => { g.cells k with bucket := 0 } }

namespace Grid
@[simp] theorem nob_shape (g : Grid F) : g.nob.shape = g.shape := rfl
@[simp] theorem nob_leaf (g : Grid F) : g.nob.leaf = g.leaf := rfl
@[simp] theorem nob_value (g : Grid F) (i : Nat) : g.nob.value i = g.value i := rfl
@[simp] theorem nob_state (g : Grid F) (i : Nat) : g.nob.state i = g.state i := rfl
@[simp] theorem nob_occ (g : Grid F) (i : Nat) : g.nob.occ i = g.occ i := rfl
@[simp] theorem nob_vel (g : Grid F) (i : Nat) : g.nob.vel i = g.vel i := rfl
theorem nob_setValue (g : Grid F) (i : Nat) (v : F) : (g.setValue i v).nob = g.nob.setValue i v := by
  unfold nob setValue modify; congr 1; funext k; dsimp only; split <;> rfl
theorem nob_setState (g : Grid F) (i : Nat) (v) : (g.setState i v).nob = g.nob.setState i v := by
  unfold nob setState modify; congr 1; funext k; dsimp only; split <;> rfl
theorem nob_setScratch (g : Grid F) (v) : (g.setScratch v).nob = g.nob.setScratch v := rfl
theorem nob_setBucket (g : Grid F) (i : Nat) (b : Nat) : (g.setBucket i b).nob = g.nob := by
  unfold nob setBucket modify; congr 1; funext k; dsimp only; split <;> rfl
theorem sameMap_nob (g : Grid F) : SameMap g g.nob := ⟨rfl, rfl, rfl, fun _ => rfl, fun _ => rfl⟩
end Grid

/-- a local solver that does not look at the bucket numbers -/
def BucketFree (eik : Eik F) : Prop := ∀ g i, eik g.nob i = eik g i

theorem getMinS_nob (g : Grid F) (i d : Nat) : g.nob.getMinValueInDimS i d = ((g.getMinValueInDimS i d).1, (g.getMinValueInDimS i d).2.nob) := by
  unfold Grid.getMinValueInDimS
  dsimp only [Grid.nob_shape]
  split <;> rfl

theorem collectS_nob (i : Nat) : ∀ (ds : List Nat) (g : Grid F) (acc : List F),
    collectS i ds g.nob acc = ((collectS i ds g acc).1, (collectS i ds g acc).2.nob) := by
  intro ds
  induction ds with
  | nil => intro g acc; rfl
  | cons d ds ih =>
    intro g acc
    unfold collectS
    rw [getMinS_nob]
    exact ih _ _

theorem eikS_bucketFree : BucketFree (eikS : Eik F) := by
  intro g i
  unfold eikS solveEikonalS
  rw [show g.nob.shape.ndims = g.shape.ndims from rfl, collectS_nob]
  rfl

namespace UFMM

/-- Invariant of the main loop.  `rem` are the initial points not expanded yet, which are all at the back of the first bucket. -/
structure Inv (g0 : Grid F) (pts : List Nat) (u : St F) (rem : List Nat) : Prop where
  wf : UQ.WF u.q
  map : SameMap g0 u.g
  suf : rem <:+ u.q.tab u.q.i0
  remp : ∀ j ∈ rem, j ∈ pts ∧ u.g.state j ≠ .narrow
  opn : ∀ j ∈ u.q.content, u.g.state j = .opn → j ∈ rem
  nar : ∀ j, u.g.state j = .narrow → (u.g.cells j).bucket < u.q.size ∧
    ∀ b, b < u.q.size → (u.q.tab b).count j = if b = (u.g.cells j).bucket then 1 else 0
  start : ∀ j ∈ pts, u.g.value j = zero ∧ (u.g.state j = .frozen ∨ j ∈ rem)

/-- the FMM configuration that UFMM is an instance of -/
def fcfg (goal : Nat) : FMM.Cfg F := { dup := false, heur := .none, hdist := fun _ => zero, goal := goal }

theorem cells_setBucket (g : Grid F) (i b k : Nat) : (g.setBucket i b).cells k = if k = i then { g.cells k with bucket := b } else g.cells k := rfl
theorem sameMap_setBucket (g : Grid F) (i : Nat) (b : Nat) : SameMap g (g.setBucket i b) :=
  ⟨rfl, rfl, rfl, fun k => by rw [cells_setBucket]; split <;> rfl, fun k => by rw [cells_setBucket]; split <;> rfl⟩
theorem bucket_setValue (g : Grid F) (i : Nat) (v : F) (k : Nat) : ((g.setValue i v).cells k).bucket = (g.cells k).bucket := by
  unfold Grid.setValue Grid.modify; dsimp only; split <;> rfl
theorem bucket_setState (g : Grid F) (i : Nat) (v) (k : Nat) : ((g.setState i v).cells k).bucket = (g.cells k).bucket := by
  unfold Grid.setState Grid.modify; dsimp only; split <;> rfl

theorem relax_cases (eik : Eik F) (s : St F) (j : Nat) :
    ((s.g.state j = .frozen ∨ s.g.occ j = true) ∧ relax eik s j = s) ∨
    (s.g.occ j = false ∧ s.g.state j = .narrow ∧ better (eik s.g j).1 (s.g.value j) = true ∧
      relax eik s j = { s with g := ((s.g.setScratch (eik s.g j).2).setValue j (eik s.g j).1).setBucket j (s.q.bucketOf (eik s.g j).1),
                               q := (s.q.increase j (s.g.cells j).bucket (eik s.g j).1).1 }) ∨
    (s.g.occ j = false ∧ s.g.state j = .narrow ∧ better (eik s.g j).1 (s.g.value j) = false ∧
      relax eik s j = { s with g := s.g.setScratch (eik s.g j).2 }) ∨
    (s.g.occ j = false ∧ s.g.state j = .opn ∧
      relax eik s j = { s with g := (((s.g.setScratch (eik s.g j).2).setState j .narrow).setValue j (eik s.g j).1).setBucket j (s.q.push j (eik s.g j).1).2,
                               q := (s.q.push j (eik s.g j).1).1 }) := by
  by_cases h : s.g.state j = .frozen ∨ s.g.occ j = true
  · left; refine ⟨h, ?_⟩; unfold relax; rw [if_pos h]
  · right
    have hocc : s.g.occ j = false := by
      cases ho : s.g.occ j
      · rfl
      · exact absurd (Or.inr ho) h
    unfold relax
    rw [if_neg h]
    dsimp only
    by_cases hn : s.g.state j = .narrow
    · rw [if_pos hn]
      by_cases hb : better (eik s.g j).1 (s.g.value j) = true
      · left; rw [if_pos hb]
        refine ⟨hocc, hn, hb, ?_⟩
        unfold increase
        dsimp only
        rw [Grid.value_setValue, if_pos rfl, bucket_setValue, UQ.increase_bucket]; rfl
      · right; left; rw [if_neg hb]; exact ⟨hocc, hn, by simpa using hb, rfl⟩
    · right; right
      rw [if_neg hn]
      refine ⟨hocc, ?_, ?_⟩
      · cases hs : s.g.state j
        · rfl
        · exact absurd hs hn
        · exact absurd (Or.inl hs) h
      · unfold push
        dsimp only
        rw [Grid.value_setValue, if_pos rfl]

/-- one neighbour -/
theorem Inv.relax {dims : List Nat} {g0 : Grid F} {pts : List Nat} {goal : Nat} {eik : Eik F} (hb : BucketFree eik)
    {u : St F} {rem : List Nat} (I : Inv g0 pts u rem) {x j : Nat} (hx : u.q.Shows x) (hfx : u.g.state x = .frozen)
    (hj : rem ≠ [] → g0.occ j = false → j ∉ pts) {heap : List Nat} (hc : u.q.content = x ::ₘ (heap : Multiset Nat)) :
    Inv g0 pts (UFMM.relax eik u j) rem ∧ (UFMM.relax eik u j).q.Shows x ∧ (UFMM.relax eik u j).g.state x = .frozen ∧
    (UFMM.relax eik u j).stop = u.stop ∧
    ∃ heap', FMM.relax (fcfg goal) eik ⟨u.g.nob, heap, u.stop⟩ j = ⟨(UFMM.relax eik u j).g.nob, heap', u.stop⟩ ∧
      (UFMM.relax eik u j).q.content = x ::ₘ (heap' : Multiset Nat) := by
  have hocc : u.g.occ j = g0.occ j := SameMap.occ_eq I.map j
  rcases relax_cases eik u j with ⟨hsk, e⟩ | ⟨ho, hn, hbt, e⟩ | ⟨ho, hn, hbt, e⟩ | ⟨ho, hn, e⟩ <;> rw [e]
  · refine ⟨I, hx, hfx, rfl, heap, ?_, hc⟩
    rw [FMM.relax_skip (by exact hsk)]
  · -- the cell is moved to another bucket
    obtain ⟨hbl, hcn'⟩ := I.nar j hn
    have hcn : (u.q.tab (u.g.cells j).bucket).count j = 1 := by rw [hcn' _ hbl, if_pos rfl]
    have hjr : j ∉ rem := fun h => (I.remp j h).2 hn
    have hxj : x ≠ j := by rintro rfl; rw [hn] at hfx; cases hfx
    obtain ⟨hc2, hW⟩ := UQ.increase_content I.wf (e := j) (b := (u.g.cells j).bucket) (t := (eik u.g j).1) hbl (Or.inr hcn)
    refine ⟨⟨hW, ?_, ?_, ?_, ?_, ?_, ?_⟩, hx.increase hxj _ _, ?_, rfl, heap, ?_, ?_⟩
    · exact ((I.map.trans (sameMap_setScratch _ _)).trans (sameMap_setValue _ _ _)).trans (sameMap_setBucket _ _ _)
    · show rem <:+ (UQ.increase _ _ _ _).1.tab (UQ.increase _ _ _ _).1.i0
      rw [UQ.increase_i0, UQ.increase_tab]
      split
      · exact I.suf
      · split
        · exact I.suf.trans (List.suffix_cons _ _)
        · split
          · have : rem.filter (· ≠ j) = rem := by
              rw [List.filter_eq_self]; intro a ha; simp; rintro rfl; exact hjr ha
            rw [← this]; exact I.suf.filter _
          · exact I.suf
    · intro k hk; refine ⟨(I.remp k hk).1, ?_⟩; simp; exact (I.remp k hk).2
    · intro k hk hs
      simp at hs
      rw [hc2] at hk
      exact I.opn k hk hs
    · intro k hk
      simp at hk
      dsimp only
      rw [cells_setBucket, UQ.increase_size]
      by_cases hkj : k = j
      · subst hkj
        rw [if_pos rfl]
        dsimp only
        refine ⟨UQ.bucketOf_lt I.wf.pos _, ?_⟩
        intro b hbn
        rw [UQ.increase_tab]
        by_cases hsm : u.q.bucketOf (eik u.g k).1 = (u.g.cells k).bucket
        · rw [if_pos hsm, hsm]; exact hcn' b hbn
        · rw [if_neg hsm]
          by_cases hbb : b = u.q.bucketOf (eik u.g k).1
          · have h0 : (u.q.tab b).count k = 0 := by rw [hcn' b hbn, if_neg (by rw [hbb]; exact hsm)]
            have hr : (if b = u.q.bucketOf (eik u.g k).1 then 1 else 0) = 1 := if_pos hbb
            rw [hr, if_pos hbb, List.count_cons_self, h0]
          · have hr : (if b = u.q.bucketOf (eik u.g k).1 then 1 else 0) = 0 := if_neg hbb
            rw [hr, if_neg hbb]
            split
            · exact List.count_eq_zero_of_not_mem (by simp)
            · next h => rw [hcn' b hbn, if_neg h]
      · rw [if_neg hkj, bucket_setValue]
        obtain ⟨h1, h2⟩ := I.nar k hk
        refine ⟨h1, ?_⟩
        intro b hbn
        have hjk : ¬ j = k := fun h => hkj h.symm
        show List.count k ((u.q.increase j _ _).1.tab b) = if b = (u.g.cells k).bucket then 1 else 0
        rw [← h2 b hbn, UQ.increase_tab]
        split
        · rfl
        · split
          · rw [List.count_cons_of_ne hjk]
          · split
            · rw [List.count_filter (by simp [hkj])]
            · rfl
    · intro k hk
      have hkr := I.start k hk
      have hkj : k ≠ j := by
        rintro rfl
        rcases hkr.2 with h | h
        · rw [hn] at h; cases h
        · exact hjr h
      refine ⟨?_, ?_⟩
      · simp [Grid.value_setValue, hkj]; exact hkr.1
      · simpa using hkr.2
    · simpa using hfx
    · have hb' : (eik u.g.nob j) = eik u.g j := hb u.g j
      rw [Grid.nob_setBucket, Grid.nob_setValue, Grid.nob_setScratch]
      unfold FMM.relax
      rw [if_neg (by simp [hn, ho])]
      simp [hb', hn, hbt, fcfg, FMM.applyHeur]
    · rw [hc2, hc]
  · refine ⟨⟨I.wf, I.map.trans (sameMap_setScratch _ _), I.suf, ?_, ?_, ?_, ?_⟩, hx, hfx, rfl, heap, ?_, hc⟩
    · exact I.remp
    · exact I.opn
    · exact I.nar
    · exact I.start
    · have hb' : (eik u.g.nob j) = eik u.g j := hb u.g j
      rw [Grid.nob_setScratch]
      unfold FMM.relax
      rw [if_neg (by simp [hn, ho])]
      simp [hb', hn, hbt, fcfg, FMM.applyHeur]
  · -- a new cell
    have hjr : j ∉ rem := by
      intro h
      exact hj (by intro h0; rw [h0] at h; simp at h) (by rw [← hocc]; exact ho) (I.remp j h).1
    have hjc : j ∉ u.q.content := fun h => hjr (I.opn j h hn)
    have hjt : ∀ b, b < u.q.size → (u.q.tab b).count j = 0 := fun b hb =>
      List.count_eq_zero_of_not_mem (fun h => hjc (UQ.mem_content.2 ⟨b, hb, h⟩))
    have hW := UQ.push_wf I.wf j (eik u.g j).1
    have hc2 := UQ.push_content I.wf j (eik u.g j).1
    obtain ⟨hS, hi0, _⟩ := hx.push I.wf j (eik u.g j).1
    have hbl := UQ.push_bucket_lt I.wf j (eik u.g j).1
    refine ⟨⟨hW, ?_, ?_, ?_, ?_, ?_, ?_⟩, hS, ?_, rfl, j :: heap, ?_, ?_⟩
    · exact (((I.map.trans (sameMap_setScratch _ _)).trans (sameMap_setState _ _ _)).trans (sameMap_setValue _ _ _)).trans (sameMap_setBucket _ _ _)
    · show rem <:+ (UQ.push _ _ _).1.tab (UQ.push _ _ _).1.i0
      rw [hi0, UQ.push_tab]
      split
      · exact I.suf.trans (List.suffix_cons _ _)
      · exact I.suf
    · intro k hk
      have hkj : k ≠ j := by rintro rfl; exact hjr hk
      refine ⟨(I.remp k hk).1, ?_⟩; simp [Grid.state_setState, hkj]; exact (I.remp k hk).2
    · intro k hk hs
      by_cases hkj : k = j
      · subst hkj; simp [Grid.state_setState] at hs
      · simp [Grid.state_setState, hkj] at hs
        change k ∈ (u.q.push j _).1.content at hk
        rw [hc2, Multiset.mem_cons] at hk
        exact I.opn k (hk.resolve_left hkj) hs
    · intro k hk
      dsimp only
      rw [cells_setBucket, UQ.push_size]
      by_cases hkj : k = j
      · subst hkj
        rw [if_pos rfl]
        dsimp only
        refine ⟨hbl, ?_⟩
        intro b hbn
        rw [UQ.push_tab]
        split
        · rw [List.count_cons_self, hjt _ hbn]
        · exact hjt _ hbn
      · rw [if_neg hkj, bucket_setValue, bucket_setState]
        simp [Grid.state_setState, hkj] at hk
        obtain ⟨h1, h2⟩ := I.nar k hk
        refine ⟨h1, ?_⟩
        intro b hbn
        have hjk : ¬ j = k := fun h => hkj h.symm
        show List.count k ((u.q.push j _).1.tab b) = if b = (u.g.cells k).bucket then 1 else 0
        rw [← h2 b hbn, UQ.push_tab]
        split
        · rw [List.count_cons_of_ne hjk]
        · rfl
    · intro k hk
      have hkr := I.start k hk
      have hkj : k ≠ j := by
        rintro rfl
        rcases hkr.2 with h | h
        · rw [hn] at h; cases h
        · exact hjr h
      refine ⟨?_, ?_⟩
      · simp [Grid.value_setValue, hkj]; exact hkr.1
      · simpa [Grid.state_setState, hkj] using hkr.2
    · have hxj : x ≠ j := by rintro rfl; rw [hn] at hfx; cases hfx
      simp [Grid.state_setState, hxj]; exact hfx
    · have hb' : (eik u.g.nob j) = eik u.g j := hb u.g j
      rw [Grid.nob_setBucket, Grid.nob_setValue, Grid.nob_setState, Grid.nob_setScratch]
      unfold FMM.relax
      rw [if_neg (by simp [hn, ho])]
      simp [hb', hn, fcfg, FMM.applyHeur]
    · show (u.q.push j _).1.content = _
      rw [hc2, hc, ← Multiset.cons_coe, Multiset.cons_swap]

/-- all neighbours -/
theorem Inv.fold {g0 : Grid F} {pts : List Nat} {goal : Nat} {eik : Eik F} (hb : BucketFree eik) {x : Nat} {rem : List Nat} :
    ∀ (l : List Nat) (u : St F), Inv g0 pts u rem → u.q.Shows x → u.g.state x = .frozen →
    (∀ j ∈ l, rem ≠ [] → g0.occ j = false → j ∉ pts) → ∀ heap : List Nat, u.q.content = x ::ₘ (heap : Multiset Nat) →
    Inv g0 pts (l.foldl (UFMM.relax eik) u) rem ∧ (l.foldl (UFMM.relax eik) u).q.Shows x ∧ (l.foldl (UFMM.relax eik) u).g.state x = .frozen ∧
    (l.foldl (UFMM.relax eik) u).stop = u.stop ∧
    ∃ heap', l.foldl (FMM.relax (fcfg goal) eik) ⟨u.g.nob, heap, u.stop⟩ = ⟨(l.foldl (UFMM.relax eik) u).g.nob, heap', u.stop⟩ ∧
      (l.foldl (UFMM.relax eik) u).q.content = x ::ₘ (heap' : Multiset Nat) := by
  intro l
  induction l with
  | nil => intro u I h1 h2 _ heap hc; exact ⟨I, h1, h2, rfl, heap, rfl, hc⟩
  | cons j l ih =>
    intro u I h1 h2 hj heap hc
    obtain ⟨I', h1', h2', hst, heap', e, hc'⟩ := I.relax (goal := goal) hb (dims := []) h1 h2 (hj j (by simp)) hc
    obtain ⟨a, b, c, d, heap2, e2, hc2⟩ := ih _ I' h1' h2' (fun k hk => hj k (by simp [hk])) heap' hc'
    refine ⟨a, b, c, d.trans hst, heap2, ?_, hc2⟩
    rw [List.foldl_cons, e, ← hst, List.foldl_cons]
    exact e2

/-- one iteration of UFMM is one iteration of FMM -/
theorem Inv.step {g0 : Grid F} {pts : List Nat} {goal : Nat} {eik : Eik F} (hb : BucketFree eik) {u u' : St F} {rem : List Nat}
    (I : Inv g0 pts u rem) (hap : ∀ a ∈ pts, ∀ b ∈ g0.shape.nbrs a, g0.occ b = false → b ∉ pts) (hs : Step goal eik u u')
    {heap : List Nat} (hc : u.q.content = (heap : Multiset Nat)) :
    ∃ x, u.q.top.2 = some x ∧ x ∈ heap ∧ ∃ rem', Inv g0 pts u' rem' ∧
    ∃ heap', FMM.expand (fcfg goal) eik ⟨u.g.nob, heap, u.stop⟩ x = ⟨u'.g.nob, heap', u'.stop⟩ ∧ u'.q.content = (heap' : Multiset Nat) := by
  obtain ⟨hnd, x, hx, rfl⟩ := hs
  have hset : UQ.settle u.q = u.q.top.1 := rfl
  have hS : u.q.top.1.Shows x := hx
  have hk := UQ.settle_keeps u.q
  have hW := UQ.settle_wf I.wf
  have hct : u.q.top.1.content = (heap : Multiset Nat) := (UQ.settle_content u.q).trans hc
  have hcp := UQ.pop_content hW hS
  have hxh : x ∈ heap := by
    have : x ∈ u.q.top.1.content := by rw [← hset, hcp.1]; exact Multiset.mem_cons_self _ _
    rw [hct] at this; exact this
  -- the state in which the neighbours are visited
  have hrem : rem ≠ [] → u.q.settle = u.q := by
    intro hne
    apply UQ.advance_stay
    intro h0
    have := I.suf; rw [h0] at this
    exact hne (List.suffix_nil.1 this)
  have hsuf : rem <:+ u.q.settle.tab u.q.settle.i0 := by
    by_cases hne : rem = []
    · rw [hne]; exact List.nil_suffix
    · rw [hrem hne]; exact I.suf
  have hlast : rem ≠ [] → rem.getLast? = some x := by
    intro hne
    obtain ⟨A, hA⟩ := hsuf
    have hS' : (u.q.settle.tab u.q.settle.i0).getLast? = some x := hS
    rw [← hA, List.getLast?_append_of_ne_nil _ hne] at hS'
    exact hS'
  have hxp : rem ≠ [] → x ∈ pts := fun hne => (I.remp x (List.mem_of_getLast? (hlast hne))).1
  have I1 : Inv g0 pts { u with q := u.q.top.1, g := u.g.setState x .frozen } rem := by
    refine ⟨hW, I.map.trans (sameMap_setState _ _ _), hsuf, ?_, ?_, ?_, ?_⟩
    · intro j hj
      refine ⟨(I.remp j hj).1, ?_⟩
      simp only [Grid.state_setState]; split
      · simp
      · exact (I.remp j hj).2
    · intro j hj hst
      simp only [Grid.state_setState] at hst
      split at hst
      · cases hst
      · exact I.opn j (by rw [← UQ.settle_content]; exact hj) hst
    · intro j hj
      simp only [Grid.state_setState] at hj
      split at hj
      · cases hj
      · have := I.nar j hj
        refine ⟨?_, ?_⟩
        · rw [bucket_setState]; show _ < u.q.settle.size; rw [hk.2.1]; exact this.1
        · intro b hb; rw [bucket_setState]; show List.count j (u.q.settle.tab b) = _; rw [hk.1]; exact this.2 b (by rw [← hk.2.1]; exact hb)
    · intro j hj
      refine ⟨by rw [Grid.value_setState]; exact (I.start j hj).1, ?_⟩
      simp only [Grid.state_setState]; split
      · left; rfl
      · exact (I.start j hj).2
  have hce : u.q.top.1.content = x ::ₘ ((heap.erase x : List Nat) : Multiset Nat) := by
    rw [hct, ← Multiset.coe_erase, Multiset.cons_erase (by exact hxh)]
  have hap' : ∀ j ∈ u.g.shape.nbrs x, rem ≠ [] → g0.occ j = false → j ∉ pts := by
    intro j hj hne ho
    exact hap x (hxp hne) j (by rw [← I.map.shape]; exact hj) ho
  obtain ⟨I2, hS2, hf2, hst2, heap', e2, hc2⟩ := I1.fold (goal := goal) hb (u.g.shape.nbrs x) _ hS
    (by simp [Grid.state_setState]) hap' (heap.erase x) hce
  obtain ⟨hp1, hp2⟩ := UQ.pop_content I2.wf hS2
  refine ⟨x, hx, hxh, rem.dropLast, ?_, heap', ?_, ?_⟩
  · have hnb : (List.foldl (UFMM.relax eik) { u with q := u.q.top.1, g := u.g.setState x .frozen } (u.g.shape.nbrs x)).q.nb ≠ 0 := by
      intro h0
      exact hS2.ne_nil (UQ.content_eq_zero_iff.1 (I2.wf.nb_zero.1 h0) _ I2.wf.i0)
    generalize hw : List.foldl (UFMM.relax eik) { u with q := u.q.top.1, g := u.g.setState x .frozen } (u.g.shape.nbrs x) = w at *
    have hexp : expand goal eik { u with q := u.q.top.1 } x = { w with q := w.q.pop, stop := if x = goal then true else w.stop } := by
      rw [← hw]; rfl
    rw [hexp]
    have hpop : w.q.pop = { w.q with nb := w.q.nb - 1, tab := fun k => if k = w.q.i0 then (w.q.tab k).dropLast else w.q.tab k } := by
      unfold UQ.pop; rw [if_neg hnb, hS2.settle]
    have hlast' : w.q.tab w.q.i0 = (w.q.tab w.q.i0).dropLast ++ [x] := (List.dropLast_append_getLast? x hS2).symm
    refine ⟨hp2, I2.map, ?_, ?_, ?_, ?_, ?_⟩
    · show rem.dropLast <:+ w.q.pop.tab w.q.pop.i0
      rw [hpop]; simp only [if_true]
      by_cases hne : rem = []
      · rw [hne]; exact List.nil_suffix
      · obtain ⟨A, hA⟩ := I2.suf
        rw [← hA, List.dropLast_append_of_ne_nil hne]
        exact List.suffix_append _ _
    · intro j hj; exact I2.remp j (List.mem_of_mem_dropLast hj)
    · intro j hj hst
      have hjx : j ≠ x := by rintro rfl; rw [hf2] at hst; cases hst
      have hjr := I2.opn j (by rw [hp1]; exact Multiset.mem_cons_of_mem hj) hst
      have hne : rem ≠ [] := by rintro rfl; simp at hjr
      have := (List.dropLast_append_getLast? x (hlast hne)).symm
      rw [this, List.mem_append] at hjr
      rcases hjr with h | h
      · exact h
      · exact absurd (by simpa using h) hjx
    · intro j hj
      have hjx : j ≠ x := by rintro rfl; rw [hf2] at hj; cases hj
      obtain ⟨h1, h2⟩ := I2.nar j hj
      refine ⟨by rw [hpop]; exact h1, ?_⟩
      intro b hb
      show List.count j (w.q.pop.tab b) = if b = (w.g.cells j).bucket then 1 else 0
      rw [← h2 b (by rw [hpop] at hb; exact hb), hpop]
      show List.count j (if b = w.q.i0 then (w.q.tab b).dropLast else w.q.tab b) = _
      split
      · next h =>
        rw [h]
        conv_rhs => rw [hlast', List.count_append, List.count_eq_zero_of_not_mem (a := j) (l := [x]) (by simpa using hjx)]
        rfl
      · rfl
    · intro j hj
      refine ⟨(I2.start j hj).1, ?_⟩
      by_cases hjx : j = x
      · left; rw [hjx]; exact hf2
      · rcases (I2.start j hj).2 with h | h
        · exact Or.inl h
        · right
          have hne : rem ≠ [] := by rintro rfl; simp at h
          rw [(List.dropLast_append_getLast? x (hlast hne)).symm, List.mem_append] at h
          rcases h with h | h
          · exact h
          · exact absurd (by simpa using h) hjx
  · rw [FMM.expand_eq]
    have h0 : FMM.popped (⟨u.g.nob, heap, u.stop⟩ : FMM.St F) x = ⟨(u.g.setState x .frozen).nob, heap.erase x, u.stop⟩ := by
      unfold FMM.popped; rw [Grid.nob_setState]
    rw [h0]
    change FMM.St.mk _ _ _ = _
    dsimp only [Grid.nob_shape]
    rw [e2]
    unfold expand
    dsimp only
    rw [hst2]
    rfl
  · have : x ::ₘ (expand goal eik { u with q := u.q.top.1 } x).q.content = x ::ₘ (heap' : Multiset Nat) := by
      rw [← hc2]; exact hp1.symm
    exact (Multiset.cons_inj_right x).1 this

/-- conditions on the queue and the arithmetic for the initialisation: the second and later initial points (time 0) go to the first bucket -/
def ZeroFirst (size : Nat) (inc : F) (ub : F → Nat) (pts : List Nat) : Prop :=
  pts.length ≤ 1 ∨ (UQ.create size inc ub).rawIdx zero = 0

theorem init_append (g0 : Grid F) (q : UQ F) (pts : List Nat) (i : Nat) :
    init g0 q (pts ++ [i]) = push { init g0 q pts with g := (init g0 q pts).g.setValue i zero } i := by
  unfold init; rw [List.foldl_append]; rfl

/-- the queue after the initialisation -/
theorem init_q (g0 : Grid F) {size : Nat} (hs : 0 < size) (inc : F) (ub : F → Nat) (pts : List Nat) : ZeroFirst size inc ub pts →
    let q := (init g0 (UQ.create size inc ub) pts).q
    q.tab = (fun b => if b = 0 then pts.reverse else []) ∧ q.nb = pts.length ∧ q.size = size ∧ q.i0 = 0 ∧ q.t0 = zero ∧ q.incMax = inc ∧ q.ub = ub := by
  induction pts using List.reverseRecOn with
  | nil => intro _; refine ⟨?_, rfl, rfl, rfl, rfl, rfl, rfl⟩; funext b; simp [init, UQ.create]
  | append_singleton pts i ih =>
    intro hz
    have hz' : ZeroFirst size inc ub pts := by
      rcases hz with h | h
      · left; simp at h; simp [h]
      · exact Or.inr h
    obtain ⟨h1, h2, h3, h4, h5, h6, h7⟩ := ih hz'
    rw [init_append]
    unfold push
    dsimp only
    rw [Grid.value_setValue, if_pos rfl]
    generalize (init g0 (UQ.create size inc ub) pts).q = q at *
    unfold UQ.push
    by_cases hnb : q.nb = 0
    · have hp : pts = [] := by rw [h2] at hnb; exact List.length_eq_zero_iff.1 hnb
      rw [if_pos hnb]
      refine ⟨?_, by rw [hp]; rfl, h3, rfl, rfl, h6, h7⟩
      funext b
      rw [UQ.cons_tab]
      dsimp only
      rw [h1, hp]
      by_cases hb : b = 0 <;> simp [hb]
    · rw [if_neg hnb]
      have hr : q.rawIdx zero = 0 := by
        rcases hz with h | h
        · simp at h; rw [h2, h] at hnb; exact absurd rfl hnb
        · rw [← h]; unfold UQ.rawIdx; dsimp only; rw [h3, h5, h6, h7]; rfl
      have hb0 : q.bucketOf zero = 0 := by
        unfold UQ.bucketOf; dsimp only
        rw [hr, h3, h4, if_neg (by omega)]; simp
      rw [hb0]
      refine ⟨?_, ?_, h3, h4, h5, h6, h7⟩
      · funext b
        rw [UQ.cons_tab]
        dsimp only
        rw [h1]
        by_cases hb : b = 0 <;> simp [hb]
      · show q.nb + 1 = _; rw [h2]; simp

/-- the grid after the initialisation -/
theorem init_g (g0 : Grid F) (q0 : UQ F) (pts : List Nat) : SameMap g0 (init g0 q0 pts).g ∧
    (∀ k, (init g0 q0 pts).g.state k = g0.state k) ∧ (∀ k, (init g0 q0 pts).g.value k = if k ∈ pts then zero else g0.value k) ∧
    (∀ goal, (init g0 q0 pts).g.nob = (FMM.init (fcfg goal) g0.nob [] pts).g) ∧ (init g0 q0 pts).stop = false := by
  induction pts using List.reverseRecOn with
  | nil => exact ⟨SameMap.refl _, fun _ => rfl, fun _ => by simp [init], fun _ => rfl, rfl⟩
  | append_singleton pts i ih =>
    obtain ⟨h1, h2, h3, h4, h5⟩ := ih
    rw [init_append]
    unfold push
    dsimp only
    refine ⟨(h1.trans (sameMap_setValue _ _ _)).trans (sameMap_setBucket _ _ _), ?_, ?_, ?_, h5⟩
    · intro k; simp [h2]
    · intro k
      simp only [Grid.value_setBucket, Grid.value_setValue, h3, List.mem_append, List.mem_singleton]
      by_cases hk : k = i <;> simp [hk]
    · intro goal
      rw [Grid.nob_setBucket, Grid.nob_setValue, h4 goal]
      unfold FMM.init; rw [List.foldl_append]; rfl

theorem inv_init {g0 : Grid F} (hop : ∀ i, g0.state i = .opn) {size : Nat} (hs : 0 < size) {inc : F} {ub : F → Nat} {pts : List Nat}
    (hz : ZeroFirst size inc ub pts) :
    Inv g0 pts (init g0 (UQ.create size inc ub) pts) pts.reverse ∧
    (init g0 (UQ.create size inc ub) pts).q.content = (pts.reverse : Multiset Nat) := by
  obtain ⟨h1, h2, h3, h4, h5, h6, h7⟩ := init_q g0 hs inc ub pts hz
  obtain ⟨g1, g2, g3, g4, g5⟩ := init_g g0 (UQ.create size inc ub) pts
  have hc : (init g0 (UQ.create size inc ub) pts).q.content = (pts.reverse : Multiset Nat) := by
    unfold UQ.content
    rw [h3, h1, Finset.sum_eq_single 0]
    · simp
    · intro b _ hb; simp [hb]
    · intro h; exact absurd (Finset.mem_range.2 hs) h
  refine ⟨⟨⟨by rw [h3]; exact hs, by rw [h4, h3]; exact hs, by rw [hc, h2]; simp⟩, g1, ?_, ?_, ?_, ?_, ?_⟩, hc⟩
  · rw [h4, h1]; exact List.suffix_refl _
  · intro j hj
    refine ⟨by simpa using hj, ?_⟩
    rw [g2, hop]; simp
  · intro j hj _
    rw [hc] at hj; exact hj
  · intro j hj
    rw [g2, hop] at hj; cases hj
  · intro j hj
    rw [g3, if_pos hj]; exact ⟨rfl, Or.inr (by simpa using hj)⟩

/-- **UFMM is FMM with some pop order**: every run of UFMM is, bucket numbers aside, a run of FMM that pops in the order the
untidy queue dictates. -/
theorem simulates {dims : List Nat} {pts : List Nat} {g0 : Grid F} (hin : Input dims g0 pts) (hop : ∀ i, g0.state i = .opn) (hap : StartsApart dims g0 pts)
    {size : Nat} (hs : 0 < size) {inc : F} {ub : F → Nat} (hz : ZeroFirst size inc ub pts) {goal : Nat} {n : Nat} {u : St F}
    (h : FMM.Steps (Step goal eikS) n (init g0 (UQ.create size inc ub) pts) u) :
    ∃ (heap rem : List Nat), Inv g0 pts u rem ∧ u.q.content = (heap : Multiset Nat) ∧
      FMM.Steps (FMM.StepLib (fcfg goal)) n (FMM.init (fcfg goal) g0.nob [] pts) ⟨u.g.nob, heap, u.stop⟩ := by
  have hap' : ∀ a ∈ pts, ∀ b ∈ g0.shape.nbrs a, g0.occ b = false → b ∉ pts := by
    intro a ha b hb ho hbp
    rw [hin.shape] at hb
    have hab := nbrs_symm hin.fits (hin.inside a ha) hb
    exact hap b hbp a ha ho ((FMM.axisAdjacent_iff hin.fits (hin.inside b hbp)).1 hab).2
  generalize hi : init g0 (UQ.create size inc ub) pts = u0 at h
  induction h with
  | refl =>
    subst hi
    obtain ⟨I, hc⟩ := inv_init (g0 := g0) hop hs hz
    refine ⟨pts.reverse, pts.reverse, I, hc, ?_⟩
    obtain ⟨_, _, _, g4, g5⟩ := init_g g0 (UQ.create size inc ub) pts
    have : (FMM.init (fcfg goal) g0.nob [] pts) = ⟨(init g0 (UQ.create size inc ub) pts).g.nob, pts.reverse, (init g0 (UQ.create size inc ub) pts).stop⟩ := by
      rw [g4 goal, g5]
      have e1 := FMM.init_heap (fcfg goal) g0.nob [] pts
      have e2 := FMM.init_stop (fcfg goal) g0.nob [] pts
      rw [List.append_nil] at e1
      rw [← e1, ← e2]
    rw [this]
    exact .refl _
  | tail h1 h2 ih =>
    obtain ⟨heap, rem, I, hc, hsim⟩ := ih hi
    have hnd := h2.1
    obtain ⟨x, _, hx, rem', I', heap', e, hc'⟩ := I.step eikS_bucketFree hap' h2 hc
    refine ⟨heap', rem', I', hc', .tail hsim ⟨?_, x, hx, e.symm⟩⟩
    rintro (hd | hd)
    · exact hnd (Or.inl hd)
    · simp only at hd; rw [hd] at hx; simp at hx

/-! ### Arbitrary initial points: the queue may lose elements -/

theorem increase_le {q : UQ F} (hp : 0 < q.size) {e b : Nat} {t : F} (hb : b < q.size) (h : e ∈ q.tab b) :
    (q.increase e b t).1.content ≤ q.content := by
  unfold UQ.increase
  dsimp only
  split
  · dsimp only
    rw [UQ.content_cons _ (by exact UQ.bucketOf_lt hp t)]
    have hs := UQ.content_set (q := q) (q' := { q with tab := fun k => if k = b then (q.tab k).filter (· ≠ e) else q.tab k }) rfl hb
      (fun k _ hk => by simp [hk])
    dsimp only at hs
    rw [if_pos rfl] at hs
    have hle : e ::ₘ (((q.tab b).filter (· ≠ e) : List Nat) : Multiset Nat) ≤ ((q.tab b : List Nat) : Multiset Nat) := by
      rw [Multiset.le_iff_count]
      intro a
      by_cases ha : a = e
      · subst ha
        rw [Multiset.count_cons_self, Multiset.coe_count, Multiset.coe_count, List.count_eq_zero_of_not_mem (by simp)]
        exact List.count_pos_iff.2 h
      · rw [Multiset.count_cons_of_ne ha, Multiset.coe_count, Multiset.coe_count, List.count_filter (by simp [ha])]
    generalize UQ.content ({ q with tab := fun k => if k = b then (q.tab k).filter (· ≠ e) else q.tab k } : UQ F) = c at hs ⊢
    have h2 : (e ::ₘ c) + (((q.tab b).filter (· ≠ e) : List Nat) : Multiset Nat) ≤ q.content + (((q.tab b).filter (· ≠ e) : List Nat) : Multiset Nat) := by
      rw [← hs, Multiset.cons_add, ← Multiset.add_cons]
      exact add_le_add_right hle c
    exact le_of_add_le_add_right h2
  · exact le_refl _

theorem push_content' {q : UQ F} (hp : 0 < q.size) (e : Nat) (t : F) : (q.push e t).1.content = e ::ₘ q.content := by
  unfold UQ.push
  split
  · next h =>
    rw [UQ.content_cons _ (by exact hp)]
    congr 1
  · rw [UQ.content_cons _ (by exact UQ.bucketOf_lt hp t)]
    congr 1

theorem push_bucket_lt' {q : UQ F} (hp : 0 < q.size) (e : Nat) (t : F) : (q.push e t).2 < q.size := by
  unfold UQ.push; split
  · exact hp
  · exact UQ.bucketOf_lt hp t

/-- weak invariant, for arbitrary initial points -/
structure Weak (u : St F) : Prop where
  pos : 0 < u.q.size
  i0 : u.q.i0 < u.q.size
  nar : ∀ j, u.g.state j = .narrow → (u.g.cells j).bucket < u.q.size ∧ j ∈ u.q.tab (u.g.cells j).bucket

theorem Weak.relax {goal : Nat} {eik : Eik F} (hb : BucketFree eik) {u : St F} (I : Weak u) {x j : Nat} (hx : u.q.Shows x) (hnb : u.q.nb ≠ 0)
    (hfx : u.g.state x = .frozen) {heap : List Nat} (hc : u.q.content ≤ x ::ₘ (heap : Multiset Nat)) :
    Weak (UFMM.relax eik u j) ∧ (UFMM.relax eik u j).q.Shows x ∧ (UFMM.relax eik u j).q.nb ≠ 0 ∧ (UFMM.relax eik u j).g.state x = .frozen ∧
    (UFMM.relax eik u j).stop = u.stop ∧
    ∃ heap', FMM.relax (fcfg goal) eik ⟨u.g.nob, heap, u.stop⟩ j = ⟨(UFMM.relax eik u j).g.nob, heap', u.stop⟩ ∧
      (UFMM.relax eik u j).q.content ≤ x ::ₘ (heap' : Multiset Nat) := by
  rcases relax_cases eik u j with ⟨hsk, e⟩ | ⟨ho, hn, hbt, e⟩ | ⟨ho, hn, hbt, e⟩ | ⟨ho, hn, e⟩ <;> rw [e]
  · refine ⟨I, hx, hnb, hfx, rfl, heap, ?_, hc⟩
    rw [FMM.relax_skip (by exact hsk)]
  · obtain ⟨hbl, hcn⟩ := I.nar j hn
    have hxj : x ≠ j := by rintro rfl; rw [hn] at hfx; cases hfx
    refine ⟨⟨?_, ?_, ?_⟩, hx.increase hxj _ _, by rw [UQ.increase_nb]; exact hnb, ?_, rfl, heap, ?_, (increase_le I.pos hbl hcn).trans hc⟩
    · rw [UQ.increase_size]; exact I.pos
    · rw [UQ.increase_size, UQ.increase_i0]; exact I.i0
    · intro k hk
      simp at hk
      dsimp only
      rw [cells_setBucket, UQ.increase_size]
      by_cases hkj : k = j
      · subst hkj
        rw [if_pos rfl]
        dsimp only
        refine ⟨UQ.bucketOf_lt I.pos _, ?_⟩
        rw [UQ.increase_tab]
        split
        · next h => rw [h]; exact hcn
        · rw [if_pos rfl]; simp
      · rw [if_neg hkj, bucket_setValue]
        obtain ⟨h1, h2⟩ := I.nar k hk
        refine ⟨h1, ?_⟩
        show k ∈ (u.q.increase j _ _).1.tab (u.g.cells k).bucket
        rw [UQ.increase_tab]
        split
        · exact h2
        · split
          · exact List.mem_cons_of_mem _ h2
          · split
            · rw [List.mem_filter]; exact ⟨h2, by simp [hkj]⟩
            · exact h2
    · simpa using hfx
    · have hb' : (eik u.g.nob j) = eik u.g j := hb u.g j
      rw [Grid.nob_setBucket, Grid.nob_setValue, Grid.nob_setScratch]
      unfold FMM.relax
      rw [if_neg (by simp [hn, ho])]
      simp [hb', hn, hbt, fcfg, FMM.applyHeur]
  · refine ⟨⟨I.pos, I.i0, I.nar⟩, hx, hnb, hfx, rfl, heap, ?_, hc⟩
    have hb' : (eik u.g.nob j) = eik u.g j := hb u.g j
    rw [Grid.nob_setScratch]
    unfold FMM.relax
    rw [if_neg (by simp [hn, ho])]
    simp [hb', hn, hbt, fcfg, FMM.applyHeur]
  · obtain ⟨hS, hi0, _⟩ := hx.push_nb hnb j (eik u.g j).1
    have hbl := push_bucket_lt' I.pos j (eik u.g j).1
    refine ⟨⟨?_, ?_, ?_⟩, hS, ?_, ?_, rfl, j :: heap, ?_, ?_⟩
    · rw [UQ.push_size]; exact I.pos
    · rw [UQ.push_size, hi0]; exact I.i0
    · intro k hk
      dsimp only
      rw [cells_setBucket, UQ.push_size]
      by_cases hkj : k = j
      · subst hkj
        rw [if_pos rfl]
        dsimp only
        refine ⟨hbl, ?_⟩
        rw [UQ.push_tab, if_pos rfl]; simp
      · rw [if_neg hkj, bucket_setValue, bucket_setState]
        simp [Grid.state_setState, hkj] at hk
        obtain ⟨h1, h2⟩ := I.nar k hk
        refine ⟨h1, ?_⟩
        show k ∈ (u.q.push j _).1.tab (u.g.cells k).bucket
        rw [UQ.push_tab]
        split
        · exact List.mem_cons_of_mem _ h2
        · exact h2
    · show (u.q.push j _).1.nb ≠ 0
      unfold UQ.push; rw [if_neg hnb]; exact Nat.succ_ne_zero _
    · have hxj : x ≠ j := by rintro rfl; rw [hn] at hfx; cases hfx
      simp [Grid.state_setState, hxj]; exact hfx
    · have hb' : (eik u.g.nob j) = eik u.g j := hb u.g j
      rw [Grid.nob_setBucket, Grid.nob_setValue, Grid.nob_setState, Grid.nob_setScratch]
      unfold FMM.relax
      rw [if_neg (by simp [hn, ho])]
      simp [hb', hn, fcfg, FMM.applyHeur]
    · show (u.q.push j _).1.content ≤ _
      rw [push_content' I.pos, ← Multiset.cons_coe, Multiset.cons_swap]
      exact Multiset.cons_le_cons _ hc

theorem Weak.fold {goal : Nat} {eik : Eik F} (hb : BucketFree eik) {x : Nat} :
    ∀ (l : List Nat) (u : St F), Weak u → u.q.Shows x → u.q.nb ≠ 0 → u.g.state x = .frozen →
    ∀ heap : List Nat, u.q.content ≤ x ::ₘ (heap : Multiset Nat) →
    Weak (l.foldl (UFMM.relax eik) u) ∧ (l.foldl (UFMM.relax eik) u).q.Shows x ∧ (l.foldl (UFMM.relax eik) u).q.nb ≠ 0 ∧
    (l.foldl (UFMM.relax eik) u).g.state x = .frozen ∧ (l.foldl (UFMM.relax eik) u).stop = u.stop ∧
    ∃ heap', l.foldl (FMM.relax (fcfg goal) eik) ⟨u.g.nob, heap, u.stop⟩ = ⟨(l.foldl (UFMM.relax eik) u).g.nob, heap', u.stop⟩ ∧
      (l.foldl (UFMM.relax eik) u).q.content ≤ x ::ₘ (heap' : Multiset Nat) := by
  intro l
  induction l with
  | nil => intro u I h1 h0 h2 heap hc; exact ⟨I, h1, h0, h2, rfl, heap, rfl, hc⟩
  | cons j l ih =>
    intro u I h1 h0 h2 heap hc
    obtain ⟨I', h1', h0', h2', hst, heap', e, hc'⟩ := I.relax (j := j) (goal := goal) hb h1 h0 h2 hc
    obtain ⟨a, b, b', c, d, heap2, e2, hc2⟩ := ih _ I' h1' h0' h2' heap' hc'
    refine ⟨a, b, b', c, d.trans hst, heap2, ?_, hc2⟩
    rw [List.foldl_cons, e, ← hst, List.foldl_cons]
    exact e2

theorem Weak.step {goal : Nat} {eik : Eik F} (hb : BucketFree eik) {u u' : St F} (I : Weak u) (hs : Step goal eik u u')
    {heap : List Nat} (hc : u.q.content ≤ (heap : Multiset Nat)) :
    ∃ x, x ∈ heap ∧ Weak u' ∧
    ∃ heap', FMM.expand (fcfg goal) eik ⟨u.g.nob, heap, u.stop⟩ x = ⟨u'.g.nob, heap', u'.stop⟩ ∧ u'.q.content ≤ (heap' : Multiset Nat) := by
  obtain ⟨hnd, x, hx, rfl⟩ := hs
  have hS : u.q.top.1.Shows x := hx
  have hk := UQ.settle_keeps u.q
  have hi : u.q.settle.i0 < u.q.size := UQ.advance_i0 _ _ I.pos I.i0
  have hct : u.q.top.1.content ≤ (heap : Multiset Nat) := (UQ.settle_content u.q).le.trans hc
  have hxc : x ∈ u.q.top.1.content := UQ.mem_content.2 ⟨u.q.settle.i0, by show _ < u.q.settle.size; rw [hk.2.1]; exact hi, List.mem_of_getLast? hS⟩
  have hxh : x ∈ heap := by
    have := Multiset.mem_of_le hct hxc
    exact this
  have hnb : u.q.top.1.nb ≠ 0 := by show u.q.settle.nb ≠ 0; rw [hk.2.2.1]; exact fun h => hnd (Or.inr h)
  have I1 : Weak { u with q := u.q.top.1, g := u.g.setState x .frozen } := by
    refine ⟨by show 0 < u.q.settle.size; rw [hk.2.1]; exact I.pos, by show u.q.settle.i0 < u.q.settle.size; rw [hk.2.1]; exact hi, ?_⟩
    intro j hj
    simp only [Grid.state_setState] at hj
    split at hj
    · cases hj
    · have := I.nar j hj
      rw [bucket_setState]
      refine ⟨by show _ < u.q.settle.size; rw [hk.2.1]; exact this.1, by show _ ∈ u.q.settle.tab _; rw [hk.1]; exact this.2⟩
  have hce : u.q.top.1.content ≤ x ::ₘ ((heap.erase x : List Nat) : Multiset Nat) := by
    rw [← Multiset.coe_erase, Multiset.cons_erase (by exact hxh)]; exact hct
  obtain ⟨I2, hS2, hn2, hf2, hst2, heap', e2, hc2⟩ := I1.fold (goal := goal) hb (u.g.shape.nbrs x) _ hS hnb
    (by simp [Grid.state_setState]) (heap.erase x) hce
  generalize hw : List.foldl (UFMM.relax eik) { u with q := u.q.top.1, g := u.g.setState x .frozen } (u.g.shape.nbrs x) = w at *
  have hexp : expand goal eik { u with q := u.q.top.1 } x = { w with q := w.q.pop, stop := if x = goal then true else w.stop } := by
    rw [← hw]; rfl
  have hpop : w.q.pop = { w.q with nb := w.q.nb - 1, tab := fun k => if k = w.q.i0 then (w.q.tab k).dropLast else w.q.tab k } := by
    unfold UQ.pop; rw [if_neg hn2, hS2.settle]
  have hlast' : w.q.tab w.q.i0 = (w.q.tab w.q.i0).dropLast ++ [x] := (List.dropLast_append_getLast? x hS2).symm
  rw [hexp]
  refine ⟨x, hxh, ⟨by rw [hpop]; exact I2.pos, by rw [hpop]; exact I2.i0, ?_⟩, heap', ?_, ?_⟩
  · intro j hj
    have hjx : j ≠ x := by rintro rfl; rw [hf2] at hj; cases hj
    obtain ⟨h1, h2⟩ := I2.nar j hj
    refine ⟨by rw [hpop]; exact h1, ?_⟩
    show j ∈ w.q.pop.tab _
    rw [hpop]
    show j ∈ (if (w.g.cells j).bucket = w.q.i0 then (w.q.tab (w.g.cells j).bucket).dropLast else w.q.tab (w.g.cells j).bucket)
    split
    · next h =>
      rw [h] at h2 ⊢
      rw [hlast', List.mem_append] at h2
      rcases h2 with h2 | h2
      · exact h2
      · exact absurd (by simpa using h2) hjx
    · exact h2
  · rw [FMM.expand_eq]
    have h0 : FMM.popped (⟨u.g.nob, heap, u.stop⟩ : FMM.St F) x = ⟨(u.g.setState x .frozen).nob, heap.erase x, u.stop⟩ := by
      unfold FMM.popped; rw [Grid.nob_setState]
    rw [h0]
    change FMM.St.mk _ _ _ = _
    dsimp only [Grid.nob_shape]
    rw [e2]
    dsimp only
    rw [hst2]
    rfl
  · have hcs := UQ.content_set (q := w.q) (q' := w.q.pop) (by rw [hpop]) I2.i0 (fun b _ hb => by rw [hpop]; simp [hb])
    have ht : w.q.pop.tab w.q.i0 = (w.q.tab w.q.i0).dropLast := by rw [hpop]; simp
    have hxm : ((w.q.tab w.q.i0 : List Nat) : Multiset Nat) = x ::ₘ (((w.q.tab w.q.i0).dropLast : List Nat) : Multiset Nat) := by
      conv_lhs => rw [hlast']
      rw [← Multiset.coe_add, Multiset.coe_singleton, add_comm, Multiset.singleton_add]
    rw [ht, hxm, Multiset.add_cons, ← Multiset.cons_add] at hcs
    have hc' : x ::ₘ w.q.pop.content = w.q.content := add_right_cancel hcs
    rw [← hc'] at hc2
    exact (Multiset.cons_le_cons_iff x).1 hc2

theorem weak_init {g0 : Grid F} (hop : ∀ i, g0.state i = .opn) {size : Nat} (hs : 0 < size) {inc : F} {ub : F → Nat} (pts : List Nat) :
    Weak (init g0 (UQ.create size inc ub) pts) ∧
    (init g0 (UQ.create size inc ub) pts).q.content = (pts.reverse : Multiset Nat) := by
  have key : 0 < (init g0 (UQ.create size inc ub) pts).q.size ∧
      (init g0 (UQ.create size inc ub) pts).q.i0 < (init g0 (UQ.create size inc ub) pts).q.size ∧
      (init g0 (UQ.create size inc ub) pts).q.content = (pts.reverse : Multiset Nat) := by
    induction pts using List.reverseRecOn with
    | nil =>
      refine ⟨hs, hs, ?_⟩
      rw [UQ.content_eq_zero_iff.2 (fun b _ => rfl)]; rfl
    | append_singleton pts i ih =>
      obtain ⟨h1, h2, h3⟩ := ih
      rw [init_append]
      unfold push
      dsimp only
      refine ⟨by rw [UQ.push_size]; exact h1, ?_, ?_⟩
      · rw [UQ.push_size]; unfold UQ.push; split
        · exact h1
        · exact h2
      · rw [push_content' h1, h3]; simp
  refine ⟨⟨key.1, key.2.1, ?_⟩, key.2.2⟩
  intro j hj
  rw [(init_g g0 _ pts).2.1, hop] at hj; cases hj

/-- Arbitrary initial points: every run of UFMM is, bucket numbers aside, the beginning of a run of FMM with some pop order. -/
theorem simulates_weak {pts : List Nat} {g0 : Grid F} (hop : ∀ i, g0.state i = .opn) {size : Nat} (hs : 0 < size) {inc : F} {ub : F → Nat}
    {goal : Nat} {n : Nat} {u : St F} (h : FMM.Steps (Step goal eikS) n (init g0 (UQ.create size inc ub) pts) u) :
    ∃ heap : List Nat, u.q.content ≤ (heap : Multiset Nat) ∧
      FMM.Steps (FMM.StepLib (fcfg goal)) n (FMM.init (fcfg goal) g0.nob [] pts) ⟨u.g.nob, heap, u.stop⟩ := by
  suffices h : ∃ heap : List Nat, Weak u ∧ u.q.content ≤ (heap : Multiset Nat) ∧
      FMM.Steps (FMM.StepLib (fcfg goal)) n (FMM.init (fcfg goal) g0.nob [] pts) ⟨u.g.nob, heap, u.stop⟩ by
    obtain ⟨heap, _, h⟩ := h; exact ⟨heap, h⟩
  generalize hi : init g0 (UQ.create size inc ub) pts = u0 at h
  induction h with
  | refl =>
    subst hi
    obtain ⟨I, hc⟩ := weak_init (g0 := g0) hop hs (inc := inc) (ub := ub) pts
    refine ⟨pts.reverse, I, hc.le, ?_⟩
    obtain ⟨_, _, _, g4, g5⟩ := init_g g0 (UQ.create size inc ub) pts
    have : (FMM.init (fcfg goal) g0.nob [] pts) = ⟨(init g0 (UQ.create size inc ub) pts).g.nob, pts.reverse, (init g0 (UQ.create size inc ub) pts).stop⟩ := by
      rw [g4 goal, g5]
      have e1 := FMM.init_heap (fcfg goal) g0.nob [] pts
      have e2 := FMM.init_stop (fcfg goal) g0.nob [] pts
      rw [List.append_nil] at e1
      rw [← e1, ← e2]
    rw [this]
    exact .refl _
  | tail h1 h2 ih =>
    obtain ⟨heap, I, hc, hsim⟩ := ih hi
    have hnd := h2.1
    obtain ⟨x, hx, I', heap', e, hc'⟩ := I.step eikS_bucketFree h2 hc
    refine ⟨heap', I', hc', .tail hsim ⟨?_, x, hx, e.symm⟩⟩
    rintro (hd | hd)
    · exact hnd (Or.inl hd)
    · simp only at hd; rw [hd] at hx; simp at hx

end UFMM
end FMV
