import Verif.Model.Fib
import Verif.Lemmas.Heap
/-!
Fibonacci heaps: the shape of the forest, the order of its trees, the top.
-/
set_option linter.unusedSectionVars false
set_option linter.unusedVariables false
namespace FMV
namespace Fib

@[simp] theorem set_self {α : Type} (f : Nat → α) (x : Nat) (a : α) : set f x a x = a := if_pos rfl
theorem set_ne {α : Type} (f : Nat → α) {x y : Nat} (a : α) (h : y ≠ x) : set f x a y = f y := if_neg h

/-- in the heap -/
def Live (s : Fib) (x : Nat) : Prop := x ∈ s.roots ∨ s.parent x ≠ none

theorem live_iff {s : Fib} {x : Nat} : s.live x = true ↔ Live s x := by
  unfold live Live
  rw [Bool.or_eq_true, List.contains_iff_mem, Option.isSome_iff_ne_none]

/-- linked to a root by parents -/
inductive Anch (s : Fib) : Nat → Prop
  | root {x} : x ∈ s.roots → Anch s x
  | child {x p} : s.parent x = some p → Anch s p → Anch s x

theorem Anch.live {s : Fib} {x : Nat} (h : Anch s x) : Live s x := by
  cases h with
  | root h => exact .inl h
  | child h _ => exact .inr (by rw [h]; simp)

/-- the forest is well-formed -/
structure Wf (s : Fib) : Prop where
  kids : ∀ c p, c ∈ s.children p ↔ s.parent c = some p
  kidsNodup : ∀ p, (s.children p).Nodup
  rootsNodup : s.roots.Nodup
  rootParent : ∀ r ∈ s.roots, s.parent r = none
  anch : ∀ x, Live s x → Anch s x

/-- parents are not after their children -/
def Ord (lo : Nat → Nat → Bool) (s : Fib) : Prop := ∀ x p, s.parent x = some p → lo p x = false

variable {lo : Nat → Nat → Bool} {P : Nat → Prop}

theorem irrefl (L : Heap.Weak lo P) {x : Nat} (h : P x) : lo x x = false := by
  by_contra hc
  have hc : lo x x = true := by simpa using hc
  have := L.asymm _ _ h h hc
  rw [hc] at this; cases this

theorem Wf.parent_live {s : Fib} (w : Wf s) {x p : Nat} (h : s.parent x = some p) : Live s p := by
  have := w.anch x (.inr (by rw [h]; simp))
  cases this with
  | root hr => rw [w.rootParent x hr] at h; cases h
  | child h2 h3 => rw [h] at h2; cases h2; exact h3.live

/-- something not after any root is not after anything -/
theorem min_all (L : Heap.Weak lo P) {s : Fib} (w : Wf s) (o : Ord lo s) (hP : ∀ x, Live s x → P x) {t : Nat} (ht : P t) (hr : ∀ r ∈ s.roots, lo t r = false) {x : Nat}
    (hx : Live s x) : lo t x = false := by
  have := w.anch x hx
  induction this with
  | root h => exact hr _ h
  | @child x p h1 h2 ih => exact L.trans _ _ _ ht (hP p h2.live) (hP x hx) (ih h2.live) (o _ _ h1)

/-! ### cut -/

structure Sub (s s' : Fib) : Prop where
  wf : Wf s'
  parent : ∀ x p, s'.parent x = some p → s.parent x = some p
  live : ∀ x, Live s' x ↔ Live s x
  roots : ∀ r ∈ s.roots, r ∈ s'.roots
  top : s'.top = s.top
  cell : s'.cell = s.cell
  count : s'.count = s.count

theorem Sub.refl {s : Fib} (w : Wf s) : Sub s s := ⟨w, fun _ _ h => h, fun _ => Iff.rfl, fun _ h => h, rfl, rfl, rfl⟩
theorem Sub.trans {a b c : Fib} (h1 : Sub a b) (h2 : Sub b c) : Sub a c :=
  ⟨h2.wf, fun x p h => h1.parent x p (h2.parent x p h), fun x => (h2.live x).trans (h1.live x), fun r h => h2.roots r (h1.roots r h),
    h2.top.trans h1.top, h2.cell.trans h1.cell, h2.count.trans h1.count⟩

theorem cut_sub {s : Fib} (w : Wf s) (n : Nat) : Sub s (cut s n) ∧ (s.parent n ≠ none → n ∈ (cut s n).roots) ∧ (cut s n).parent n = none := by
  unfold cut
  split
  · next h => exact ⟨Sub.refl w, fun hc => absurd h hc, h⟩
  · next p h =>
    have hn : n ∉ s.roots := fun hr => by rw [w.rootParent n hr] at h; cases h
    have hlive : ∀ x, (x ∈ n :: s.roots ∨ set s.parent n none x ≠ none) ↔ Live s x := by
      intro x
      by_cases hx : x = n
      · subst hx; exact ⟨fun _ => .inr (by rw [h]; simp), fun _ => .inl (by simp)⟩
      · rw [set_ne _ _ hx, List.mem_cons]
        exact ⟨fun h => h.imp_left (fun h => h.resolve_left hx), fun h => h.imp_left .inr⟩
    refine ⟨⟨⟨?_, ?_, ?_, ?_, ?_⟩, ?_, hlive, fun r hr => List.mem_cons_of_mem _ hr, rfl, rfl, rfl⟩, fun _ => by simp, by simp⟩
    · intro c q
      show c ∈ set s.children p ((s.children p).erase n) q ↔ set s.parent n none c = some q
      by_cases hc : c = n
      · subst hc
        rw [set_self]
        constructor
        · intro hm
          by_cases hq : q = p
          · subst hq; rw [set_self] at hm; exact absurd hm (List.Nodup.not_mem_erase (w.kidsNodup _))
          · rw [set_ne _ _ hq, w.kids, h] at hm; exact absurd (Option.some.inj hm).symm hq
        · intro hm; cases hm
      · rw [set_ne _ _ hc, ← w.kids]
        by_cases hq : q = p
        · subst hq; rw [set_self, List.mem_erase_of_ne hc]
        · rw [set_ne _ _ hq]
    · intro q
      show (set s.children p ((s.children p).erase n) q).Nodup
      by_cases hq : q = p
      · subst hq; rw [set_self]; exact (w.kidsNodup _).erase _
      · rw [set_ne _ _ hq]; exact w.kidsNodup q
    · exact List.nodup_cons.2 ⟨hn, w.rootsNodup⟩
    · intro r hr
      show set s.parent n none r = none
      by_cases hrn : r = n
      · subst hrn; simp
      · rw [set_ne _ _ hrn]; exact w.rootParent r ((List.mem_cons.1 hr).resolve_left hrn)
    · intro x hx
      have := w.anch x ((hlive x).1 hx)
      clear hx
      induction this with
      | root hr => exact .root (List.mem_cons_of_mem _ hr)
      | @child x q h1 h2 ih =>
        by_cases hxn : x = n
        · subst hxn; exact .root (List.mem_cons_self)
        · exact .child (p := q) (by show set s.parent n none x = _; rw [set_ne _ _ hxn]; exact h1) ih
    · intro x q hq
      change set s.parent n none x = some q at hq
      by_cases hxn : x = n
      · subst hxn; rw [set_self] at hq; cases hq
      · rwa [set_ne _ _ hxn] at hq

theorem mark_wf {s : Fib} (w : Wf s) (m : Nat → Bool) : Wf { s with mark := m } := by
  refine ⟨w.kids, w.kidsNodup, w.rootsNodup, w.rootParent, fun x hx => ?_⟩
  have := w.anch x hx
  clear hx
  induction this with
  | root h => exact .root h
  | child h1 _ ih => exact .child h1 ih

theorem cascade_sub : ∀ (f : Nat) {s : Fib} (w : Wf s) (n : Nat), Sub s (cascade f s n)
  | 0, s, w, n => Sub.refl w
  | f + 1, s, w, n => by
    unfold cascade
    split
    · exact Sub.refl w
    · split
      · exact ⟨mark_wf w _, fun _ _ h => h, fun _ => Iff.rfl, fun _ h => h, rfl, rfl, rfl⟩
      · have h := (cut_sub w n).1
        exact h.trans (cascade_sub f h.wf _)

/-! ### increase -/

/-- the top is a root, and not after any node -/
def TopOk (lo : Nat → Nat → Bool) (s : Fib) : Prop := (s.roots = [] ∧ s.top = none) ∨ ∃ t, s.top = some t ∧ t ∈ s.roots ∧ ∀ x, Live s x → lo t x = false

theorem TopOk.of_roots (L : Heap.Weak lo P) {s : Fib} (w : Wf s) (o : Ord lo s) (hP : ∀ x, Live s x → P x) {t : Nat} (h1 : s.top = some t) (h2 : t ∈ s.roots)
    (h3 : ∀ r ∈ s.roots, lo t r = false) : TopOk lo s := .inr ⟨t, h1, h2, fun x hx => min_all L w o hP (hP t (.inl h2)) h3 hx⟩

/-- `increase` after the key of node `x` was lowered: `lo` is the order before, `lo'` after -/
theorem increase_ok {F : Type} [Arith F] {g : Grid F} {lo lo' : Nat → Nat → Bool} {P' : Nat → Prop} (L' : Heap.Weak lo' P') {s : Fib} (hlo : Fib.low g s = lo') (w : Wf s)
    (o : Ord lo s) (t : TopOk lo s) (hP' : ∀ x, Live s x → P' x) {x : Nat} (hx : Live s x) (h1 : ∀ y z, y ≠ x → z ≠ x → lo' y z = lo y z)
    (h2 : ∀ y, Live s y → y ≠ x → lo x y = false → lo' x y = false) (fuel : Nat) :
    Wf (increase g fuel s x) ∧ Ord lo' (increase g fuel s x) ∧ TopOk lo' (increase g fuel s x) ∧ (∀ y, Live (increase g fuel s x) y ↔ Live s y) ∧
      (increase g fuel s x).cell = s.cell ∧ (increase g fuel s x).count = s.count := by
  obtain ⟨tt, ht1, ht2, ht3⟩ : ∃ t, s.top = some t ∧ t ∈ s.roots ∧ ∀ x, Live s x → lo t x = false := by
    rcases t with ⟨h, -⟩ | h
    · exfalso
      have := w.anch x hx
      have : ∀ y, ¬ Anch s y := by
        intro y hy
        induction hy with
        | root hr => rw [h] at hr; cases hr
        | child _ _ ih => exact ih
      exact this x (w.anch x hx)
    · exact h
  -- the top is not after any other node
  have hA : ∀ y, Live s y → y ≠ x → lo' tt y = false := by
    intro y hy hyx
    by_cases htx : tt = x
    · subst htx; exact h2 y hy hyx (ht3 y hy)
    · rw [h1 _ _ htx hyx]; exact ht3 y hy
  -- the state after the cuts
  obtain ⟨s1, hs1, hsub, hord, hcase⟩ : ∃ s1, s1 = raise g fuel s x ∧ Sub s s1 ∧ Ord lo' s1 ∧ (lo' tt x = true → x ∈ s1.roots) := by
    refine ⟨_, rfl, ?_⟩
    unfold raise
    cases hp : s.parent x with
    | none =>
      dsimp only
      refine ⟨Sub.refl w, ?_, fun _ => hx.resolve_right (by simp [hp])⟩
      intro y q hy
      have hyx : y ≠ x := by rintro rfl; rw [hp] at hy; cases hy
      by_cases hq : q = x
      · subst hq; exact h2 y (.inr (by rw [hy]; simp)) hyx (o _ _ hy)
      · rw [h1 _ _ hq hyx]; exact o _ _ hy
    | some p =>
      dsimp only
      have hlive_p := w.parent_live hp
      have hpx : p ≠ x := by
        rintro rfl
        have hbad : ∀ y, Anch s y → y = p → False := by
          intro y hy
          induction hy with
          | root hr => rintro rfl; rw [w.rootParent _ hr] at hp; cases hp
          | child h3 _ ih => rintro rfl; rw [hp] at h3; cases h3; exact ih rfl
        exact hbad p (w.anch p hx) rfl
      have ordne : ∀ y q, s.parent y = some q → y ≠ x → lo' q y = false := by
        intro y q hy hyx
        by_cases hq : q = x
        · subst hq; exact h2 y (.inr (by rw [hy]; simp)) hyx (o _ _ hy)
        · rw [h1 _ _ hq hyx]; exact o _ _ hy
      rw [hlo]
      by_cases hc : lo' p x = true
      · rw [if_pos hc]
        obtain ⟨k1, k2, k3⟩ := cut_sub w x
        have k4 := cascade_sub fuel k1.wf p
        refine ⟨k1.trans k4, ?_, fun _ => k4.roots x (k2 (by rw [hp]; simp))⟩
        intro y q hy
        have hy2 := k4.parent _ _ hy
        have hyx : y ≠ x := by rintro rfl; rw [k3] at hy2; cases hy2
        exact ordne y q (k1.parent _ _ hy2) hyx
      · rw [if_neg hc]
        have hc' : lo' p x = false := by simpa using hc
        refine ⟨Sub.refl w, ?_, ?_⟩
        · intro y q hy
          by_cases hyx : y = x
          · subst hyx; rw [hp] at hy; cases hy; exact hc'
          · exact ordne y q hy hyx
        · intro hcon
          have := L'.trans _ _ _ (hP' tt (.inl ht2)) (hP' p hlive_p) (hP' x hx) (hA p hlive_p hpx) hc'
          rw [hcon] at this; cases this
  have htop1 : s1.top = some tt := hsub.top.trans ht1
  have hlo1 : low g s1 = lo' := by rw [← hlo]; unfold low; rw [hsub.cell]
  have e : increase g fuel s x = if lo' tt x then { s1 with top := some x } else s1 := by
    unfold increase
    dsimp only
    rw [← hs1, htop1]
    dsimp only
    rw [hlo1]
  have hPt := hP' tt (.inl ht2)
  have hPx := hP' x hx
  by_cases hc : lo' tt x = true
  · rw [e, if_pos hc]
    have wf' : Wf { s1 with top := some x } := by
      refine ⟨hsub.wf.kids, hsub.wf.kidsNodup, hsub.wf.rootsNodup, hsub.wf.rootParent, fun y hy => ?_⟩
      have := hsub.wf.anch y hy
      clear hy
      induction this with
      | root h => exact .root h
      | child h1 _ ih => exact .child h1 ih
    refine ⟨wf', hord, .inr ⟨x, rfl, hcase hc, ?_⟩, fun y => hsub.live y, hsub.cell, hsub.count⟩
    intro y hy
    have hy' : Live s y := (hsub.live y).1 hy
    by_cases hyx : y = x
    · subst hyx; exact irrefl L' hPx
    · exact L'.trans _ _ _ hPx hPt (hP' y hy') (L'.asymm _ _ hPt hPx hc) (hA y hy' hyx)
  · rw [e, if_neg hc]
    refine ⟨hsub.wf, hord, .inr ⟨tt, htop1, hsub.roots _ ht2, ?_⟩, hsub.live, hsub.cell, hsub.count⟩
    intro y hy
    have hy' : Live s y := (hsub.live y).1 hy
    by_cases hyx : y = x
    · subst hyx; simpa using hc
    · exact hA y hy' hyx

end Fib
end FMV
