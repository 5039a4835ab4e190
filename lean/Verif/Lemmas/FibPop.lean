import Verif.Lemmas.Fib
/-!
Fibonacci heaps: linking, consolidation, `pop` and `push`.
-/
set_option linter.unusedSectionVars false
set_option linter.unusedVariables false
namespace FMV
namespace Fib
variable {lo : Nat → Nat → Bool} {P : Nat → Prop}

theorem link_ok {s : Fib} (w : Wf s) (od : Ord lo s) {n o : Nat} (hn : n ∈ s.roots) (ho : o ∈ s.roots) (hno : n ≠ o) (hlo : lo n o = false) :
    Wf (link s n o) ∧ Ord lo (link s n o) ∧ (∀ x, Live (link s n o) x ↔ Live s x) ∧ (link s n o).roots = s.roots.erase o ∧ (link s n o).top = s.top ∧
      (link s n o).cell = s.cell ∧ (link s n o).count = s.count := by
  have hpo := w.rootParent o ho
  have hpn := w.rootParent n hn
  have e : link s n o = { s with roots := s.roots.erase o, children := set s.children n (s.children n ++ [o]), parent := set s.parent o (some n) } := by
    unfold link; rw [hpo]
  rw [e]
  have hnr : n ∈ s.roots.erase o := (List.mem_erase_of_ne hno).2 hn
  have hlive : ∀ x, (x ∈ s.roots.erase o ∨ set s.parent o (some n) x ≠ none) ↔ Live s x := by
    intro x
    by_cases hx : x = o
    · subst hx; rw [set_self]; exact ⟨fun _ => .inl ho, fun _ => .inr (by simp)⟩
    · rw [set_ne _ _ hx, List.mem_erase_of_ne hx]; exact Iff.rfl
  refine ⟨⟨?_, ?_, w.rootsNodup.erase _, ?_, ?_⟩, ?_, hlive, rfl, rfl, rfl, rfl⟩
  · intro c q
    show c ∈ set s.children n (s.children n ++ [o]) q ↔ set s.parent o (some n) c = some q
    by_cases hc : c = o
    · subst hc
      rw [set_self]
      by_cases hq : q = n
      · subst hq; rw [set_self]; simp
      · rw [set_ne _ _ hq, w.kids, hpo]
        exact ⟨fun h => (by cases h), fun h => absurd (Option.some.inj h).symm hq⟩
    · rw [set_ne _ _ hc, ← w.kids]
      by_cases hq : q = n
      · subst hq; rw [set_self, List.mem_append, List.mem_singleton]; exact ⟨fun h => h.resolve_right hc, .inl⟩
      · rw [set_ne _ _ hq]
  · intro q
    show (set s.children n (s.children n ++ [o]) q).Nodup
    by_cases hq : q = n
    · subst hq
      rw [set_self, List.nodup_append]
      refine ⟨w.kidsNodup _, by simp, ?_⟩
      intro a ha b hb
      rw [List.mem_singleton] at hb
      subst hb
      rintro rfl
      rw [w.kids, hpo] at ha; cases ha
    · rw [set_ne _ _ hq]; exact w.kidsNodup q
  · intro r hr
    have hro : r ≠ o := by rintro rfl; exact List.Nodup.not_mem_erase w.rootsNodup hr
    show set s.parent o (some n) r = none
    rw [set_ne _ _ hro]
    exact w.rootParent r (List.mem_of_mem_erase hr)
  · intro x hx
    have := w.anch x ((hlive x).1 hx)
    clear hx
    induction this with
    | @root x hr =>
      by_cases hxo : x = o
      · subst hxo; exact .child (p := n) (by show set s.parent x (some n) x = _; rw [set_self]) (.root hnr)
      · exact .root ((List.mem_erase_of_ne hxo).2 hr)
    | @child x q h1 h2 ih =>
      have hxo : x ≠ o := by rintro rfl; rw [hpo] at h1; cases h1
      exact .child (p := q) (by show set s.parent o (some n) x = _; rw [set_ne _ _ hxo]; exact h1) ih
  · intro x q hq
    change set s.parent o (some n) x = some q at hq
    by_cases hxo : x = o
    · subst hxo; rw [set_self] at hq; cases hq; exact hlo
    · rw [set_ne _ _ hxo] at hq; exact od _ _ hq

/-- invariant of the inner loop of `consolidate`; `rest` are the roots not yet visited, `s0` is the heap before -/
structure M (lo : Nat → Nat → Bool) (s0 : Fib) (rest : List Nat) (t : Nat) (s : Fib) (aux : Nat → Option Nat) (n : Nat) : Prop where
  wf : Wf s
  ord : Ord lo s
  live : ∀ x, Live s x ↔ Live s0 x
  cell : s.cell = s0.cell
  count : s.count = s0.count
  top : s.top = some t
  nr : n ∈ s.roots
  nrest : n ∉ rest
  rst : ∀ r ∈ rest, r ∈ s.roots
  ax : ∀ k a, aux k = some a → a ∈ s.roots ∧ a ∉ rest
  inj : ∀ k k' a, aux k = some a → aux k' = some a → k = k'
  vis : ∀ r ∈ s.roots, r ∉ rest → r ≠ n → lo t r = false
  tt : (t ∈ s.roots ∧ t ∉ rest) ∨ lo n t = false

theorem merge_ok {F : Type} [Arith F] {g : Grid F} (L : Heap.Weak lo P) {s0 : Fib} (hlo : Fib.low g s0 = lo) (hP : ∀ x, Live s0 x → P x) {rest : List Nat} {t : Nat} (hPt : P t) :
    ∀ (f : Nat) (s : Fib) (aux : Nat → Option Nat) (n : Nat), M lo s0 rest t s aux n → (∀ k, aux k ≠ some n) →
      M lo s0 rest t (merge g f s aux n).1 (merge g f s aux n).2.1 (merge g f s aux n).2.2
  | 0, s, aux, n, h, _ => h
  | f + 1, s, aux, n, h, hn => by
    unfold merge
    dsimp only
    have hlos : Fib.low g s = lo := by rw [← hlo]; unfold low; rw [h.cell]
    cases ha : aux (s.children n).length with
    | none =>
      dsimp only
      refine { h with ax := ?_, inj := ?_ }
      · intro k a hk
        by_cases hkr : k = (s.children n).length
        · subst hkr; rw [set_self] at hk; cases hk; exact ⟨h.nr, h.nrest⟩
        · rw [set_ne _ _ hkr] at hk; exact h.ax k a hk
      · intro k k' a hk hk'
        by_cases hkr : k = (s.children n).length
        · subst hkr
          rw [set_self] at hk; cases hk
          by_cases hkr' : k' = (s.children n).length
          · exact hkr'.symm
          · rw [set_ne _ _ hkr'] at hk'; exact absurd hk' (hn k')
        · rw [set_ne _ _ hkr] at hk
          by_cases hkr' : k' = (s.children n).length
          · subst hkr'; rw [set_self] at hk'; cases hk'; exact absurd hk (hn k)
          · rw [set_ne _ _ hkr'] at hk'; exact h.inj k k' a hk hk'
    | some other =>
      dsimp only
      obtain ⟨hor, horest⟩ := h.ax _ _ ha
      have hne : other ≠ n := fun e => hn _ (by rw [ha, e])
      have hPn : P n := hP n ((h.live n).1 (.inl h.nr))
      have hPo : P other := hP other ((h.live other).1 (.inl hor))
      -- both cases: winner `w`, loser `o`
      have key : ∀ w o : Nat, (w = other ∧ o = n ∨ w = n ∧ o = other) → lo w o = false →
          M lo s0 rest t (link s w o) (set aux (s.children n).length none) w ∧ ∀ k, set aux (s.children n).length none k ≠ some w := by
        intro w o hwo hlw
        have hw : w ∈ s.roots ∧ w ∉ rest := by rcases hwo with ⟨rfl, -⟩ | ⟨rfl, -⟩ <;> [exact ⟨hor, horest⟩; exact ⟨h.nr, h.nrest⟩]
        have ho : o ∈ s.roots ∧ o ∉ rest := by rcases hwo with ⟨-, rfl⟩ | ⟨-, rfl⟩ <;> [exact ⟨h.nr, h.nrest⟩; exact ⟨hor, horest⟩]
        have hwne : w ≠ o := by rcases hwo with ⟨rfl, rfl⟩ | ⟨rfl, rfl⟩ <;> [exact hne; exact hne.symm]
        have hauxne : ∀ k a, set aux (s.children n).length none k = some a → aux k = some a ∧ a ≠ w ∧ a ≠ o := by
          intro k a hk
          by_cases hkr : k = (s.children n).length
          · subst hkr; rw [set_self] at hk; cases hk
          · rw [set_ne _ _ hkr] at hk
            have h1 : a ≠ n := fun e => hn k (by rw [hk, e])
            have h2 : a ≠ other := by rintro rfl; exact hkr (h.inj _ _ _ hk ha)
            rcases hwo with ⟨rfl, rfl⟩ | ⟨rfl, rfl⟩
            · exact ⟨hk, h2, h1⟩
            · exact ⟨hk, h1, h2⟩
        obtain ⟨l1, l2, l3, l4, l5, l6, l7⟩ := link_ok h.wf h.ord hw.1 ho.1 hwne hlw
        have hPw : P w := hP w ((h.live w).1 (.inl hw.1))
        have hPoo : P o := hP o ((h.live o).1 (.inl ho.1))
        refine ⟨⟨l1, l2, fun x => (l3 x).trans (h.live x), l6.trans h.cell, l7.trans h.count, l5.trans h.top, ?_, hw.2, ?_, ?_, ?_, ?_, ?_⟩,
          fun k hk => (hauxne k w hk).2.1 rfl⟩
        · rw [l4]; exact (List.mem_erase_of_ne hwne).2 hw.1
        · intro r hr
          rw [l4]
          exact (List.mem_erase_of_ne (by rintro rfl; exact ho.2 hr)).2 (h.rst r hr)
        · intro k a hk
          obtain ⟨h1, h2, h3⟩ := hauxne k a hk
          rw [l4]
          exact ⟨(List.mem_erase_of_ne h3).2 (h.ax k a h1).1, (h.ax k a h1).2⟩
        · intro k k' a hk hk'
          exact h.inj k k' a (hauxne k a hk).1 (hauxne k' a hk').1
        · intro r hr hrr hrw
          rw [l4] at hr
          have hro : r ≠ o := by rintro rfl; exact List.Nodup.not_mem_erase h.wf.rootsNodup hr
          refine h.vis r (List.mem_of_mem_erase hr) hrr ?_
          rcases hwo with ⟨-, rfl⟩ | ⟨rfl, -⟩
          · exact hro
          · exact hrw
        · by_cases hto : t = o
          · subst hto; exact .inr hlw
          · rcases h.tt with ⟨h1, h2⟩ | h1
            · left; rw [l4]; exact ⟨(List.mem_erase_of_ne hto).2 h1, h2⟩
            · right
              rcases hwo with ⟨rfl, rfl⟩ | ⟨rfl, rfl⟩
              · exact L.trans _ _ _ hPw hPoo hPt hlw h1
              · exact h1
      rw [hlos]
      by_cases hc : lo n other = true
      · rw [if_pos hc]
        have := key other n (.inl ⟨rfl, rfl⟩) (L.asymm _ _ hPn hPo hc)
        exact merge_ok L hlo hP hPt f _ _ _ this.1 this.2
      · rw [if_neg hc]
        have := key n other (.inr ⟨rfl, rfl⟩) (by simpa using hc)
        exact merge_ok L hlo hP hPt f _ _ _ this.1 this.2

/-- invariant of the outer loop -/
structure V (lo : Nat → Nat → Bool) (s0 : Fib) (rest : List Nat) (t : Nat) (s : Fib) (aux : Nat → Option Nat) : Prop where
  wf : Wf s
  ord : Ord lo s
  live : ∀ x, Live s x ↔ Live s0 x
  cell : s.cell = s0.cell
  count : s.count = s0.count
  top : s.top = some t
  rst : ∀ r ∈ rest, r ∈ s.roots
  nd : rest.Nodup
  ax : ∀ k a, aux k = some a → a ∈ s.roots ∧ a ∉ rest
  inj : ∀ k k' a, aux k = some a → aux k' = some a → k = k'
  vis : ∀ r ∈ s.roots, r ∉ rest → lo t r = false
  tt : (t ∈ s.roots ∧ t ∉ rest) ∨ rest.head? = some t

theorem top_wf {s : Fib} (w : Wf s) (m : Option Nat) : Wf { s with top := m } := by
  refine ⟨w.kids, w.kidsNodup, w.rootsNodup, w.rootParent, fun x hx => ?_⟩
  have := w.anch x hx
  clear hx
  induction this with
  | root h => exact .root h
  | child h1 _ ih => exact .child h1 ih

theorem visit_ok {F : Type} [Arith F] {g : Grid F} (L : Heap.Weak lo P) {s0 : Fib} (hlo : Fib.low g s0 = lo) (hP : ∀ x, Live s0 x → P x) {n : Nat} {rest : List Nat} {t f : Nat}
    {s : Fib} {aux : Nat → Option Nat} (h : V lo s0 (n :: rest) t s aux) :
    ∃ t', V lo s0 rest t' (visit g f (s, aux) n).1 (visit g f (s, aux) n).2 ∧ (visit g f (s, aux) n).1.top = some t' ∧ t' ∈ (visit g f (s, aux) n).1.roots ∧ t' ∉ rest := by
  have hn : n ∈ s.roots := h.rst n (by simp)
  obtain ⟨hnr, hnd⟩ := List.nodup_cons.1 h.nd
  have hPn : P n := hP n ((h.live n).1 (.inl hn))
  have hPt : P t := by
    rcases h.tt with ⟨h1, -⟩ | h1
    · exact hP t ((h.live t).1 (.inl h1))
    · rw [List.head?_cons] at h1; cases h1; exact hPn
  have hm : M lo s0 rest t s aux n := by
    refine ⟨h.wf, h.ord, h.live, h.cell, h.count, h.top, hn, hnr, fun r hr => h.rst r (by simp [hr]), fun k a hk => ⟨(h.ax k a hk).1, fun hr => (h.ax k a hk).2 (by simp [hr])⟩,
      h.inj, fun r hr hrr hrn => h.vis r hr (by simp [hrr, hrn]), ?_⟩
    rcases h.tt with ⟨h1, h2⟩ | h1
    · exact .inl ⟨h1, fun hr => h2 (by simp [hr])⟩
    · rw [List.head?_cons] at h1; cases h1; exact .inr (irrefl L hPn)
  have hM := merge_ok L hlo hP hPt f s aux n hm (fun k hk => (h.ax k n hk).2 (by simp))
  unfold visit
  dsimp only
  set r := merge g f s aux n with hr
  rw [hM.top]
  dsimp only
  have hlos : Fib.low g r.1 = lo := by rw [← hlo]; unfold low; rw [hM.cell]
  rw [hlos]
  have hPm : P r.2.2 := hP _ ((hM.live _).1 (.inl hM.nr))
  by_cases hc : lo r.2.2 t = false
  · rw [hc]
    refine ⟨r.2.2, ⟨top_wf hM.wf _, hM.ord, hM.live, hM.cell, hM.count, rfl, hM.rst, hnd, hM.ax, hM.inj, ?_, .inl ⟨hM.nr, hM.nrest⟩⟩, rfl, hM.nr, hM.nrest⟩
    intro x hx hxr
    by_cases hxm : x = r.2.2
    · subst hxm; exact irrefl L hPm
    · exact L.trans _ _ _ hPm hPt (hP x ((hM.live x).1 (.inl hx))) hc (hM.vis x hx hxr hxm)
  · have hc' : lo r.2.2 t = true := by simpa using hc
    rw [hc']
    have ht := hM.tt.resolve_right hc
    refine ⟨t, ⟨hM.wf, hM.ord, hM.live, hM.cell, hM.count, hM.top, hM.rst, hnd, hM.ax, hM.inj, ?_, .inl ht⟩, hM.top, ht.1, ht.2⟩
    intro x hx hxr
    by_cases hxm : x = r.2.2
    · subst hxm; exact L.asymm _ _ hPm hPt hc'
    · exact hM.vis x hx hxr hxm

theorem visits_ok {F : Type} [Arith F] {g : Grid F} (L : Heap.Weak lo P) {s0 : Fib} (hlo : Fib.low g s0 = lo) (hP : ∀ x, Live s0 x → P x) (f : Nat) :
    ∀ (l : List Nat) (st : Fib × (Nat → Option Nat)) (t : Nat), V lo s0 l t st.1 st.2 → (l = [] → t ∈ st.1.roots) →
      ∃ t', V lo s0 [] t' (l.foldl (visit g f) st).1 (l.foldl (visit g f) st).2 ∧ t' ∈ (l.foldl (visit g f) st).1.roots
  | [], st, t, h, ht => ⟨t, h, ht rfl⟩
  | n :: rest, st, t, h, _ => by
    obtain ⟨t', h1, h2, h3, h4⟩ := visit_ok (f := f) L hlo hP h
    rw [List.foldl_cons]
    exact visits_ok L hlo hP f rest _ t' h1 (fun _ => h3)

/-- what an operation leaves -/
structure Ok (lo : Nat → Nat → Bool) (s : Fib) : Prop where
  wf : Wf s
  ord : Ord lo s
  top : TopOk lo s

theorem consolidate_ok {F : Type} [Arith F] {g : Grid F} (L : Heap.Weak lo P) {s : Fib} (hlo : Fib.low g s = lo) (hP : ∀ x, Live s x → P x) (w : Wf s) (o : Ord lo s)
    (hne : s.roots ≠ []) (f : Nat) :
    Ok lo (consolidate g f s) ∧ (∀ x, Live (consolidate g f s) x ↔ Live s x) ∧ (consolidate g f s).cell = s.cell ∧ (consolidate g f s).count = s.count := by
  obtain ⟨r, rs, hr⟩ := List.exists_cons_of_ne_nil hne
  have e : consolidate g f s = (s.roots.foldl (visit g f) ({ s with top := some r }, fun _ => none)).1 := by
    unfold consolidate
    rw [hr]
  rw [e]
  have hV : V lo s s.roots r ({ s with top := some r } : Fib) (fun _ => none) := by
    refine ⟨top_wf w _, o, fun x => Iff.rfl, rfl, rfl, rfl, fun x hx => hx, w.rootsNodup, by simp, by simp, fun x hx hx2 => absurd hx hx2, .inr (by rw [hr]; rfl)⟩
  obtain ⟨t, h1, h2⟩ := visits_ok L hlo hP f s.roots ({ s with top := some r }, fun _ => none) r hV (fun h => absurd h hne)
  exact ⟨⟨h1.wf, h1.ord, TopOk.of_roots L h1.wf h1.ord (fun x hx => hP x ((h1.live x).1 hx)) h1.top h2 (fun x hx => h1.vis x hx (by simp))⟩, h1.live, h1.cell, h1.count⟩

theorem foldl_set (l : List Nat) (x : Nat) : ∀ f : Nat → Option Nat, (l.foldl (fun (f : Nat → Option Nat) c => set f c none) f) x = if x ∈ l then none else f x := by
  induction l with
  | nil => intro f; simp
  | cons c l ih =>
    intro f
    rw [List.foldl_cons, ih]
    by_cases hx : x ∈ l
    · simp [hx]
    · by_cases hxc : x = c
      · subst hxc; simp [hx]
      · simp [hx, hxc, set_ne f (none : Option Nat) hxc]

theorem pop_ok {F : Type} [Arith F] {g : Grid F} (L : Heap.Weak lo P) {s : Fib} (hlo : Fib.low g s = lo) (hP : ∀ x, Live s x → P x) (ok : Ok lo s) {t : Nat} (ht : s.top = some t)
    (hcount : s.count - 1 ≠ 0 ↔ ∃ x, Live s x ∧ x ≠ t) (f : Nat) :
    Ok lo (pop g f s) ∧ (∀ x, Live (pop g f s) x ↔ Live s x ∧ x ≠ t) ∧ (pop g f s).cell = s.cell ∧ (pop g f s).count = s.count - 1 := by
  have htr : t ∈ s.roots := by
    rcases ok.top with ⟨-, h⟩ | ⟨t', h1, h2, -⟩
    · rw [ht] at h; cases h
    · rw [ht] at h1; cases h1; exact h2
  have w := ok.wf
  have hpt := w.rootParent t htr
  unfold pop
  rw [ht]
  dsimp only
  set s1 : Fib := { s with roots := s.roots.erase t ++ s.children t, parent := (s.children t).foldl (fun f c => set f c none) s.parent,
                           children := set s.children t [], count := s.count - 1, top := some t } with hs1
  have hpar : ∀ x, s1.parent x = if x ∈ s.children t then none else s.parent x := fun x => foldl_set _ _ _
  have htc : t ∉ s.children t := by rw [w.kids, hpt]; simp
  have hlive : ∀ x, Live s1 x ↔ Live s x ∧ x ≠ t := by
    intro x
    unfold Live
    rw [hpar]
    show (x ∈ s.roots.erase t ++ s.children t ∨ _) ↔ _
    rw [List.mem_append]
    by_cases hxt : x = t
    · subst hxt
      simp [htc, hpt, List.Nodup.not_mem_erase w.rootsNodup]
    · rw [List.mem_erase_of_ne hxt]
      by_cases hxc : x ∈ s.children t
      · have := (w.kids x t).1 hxc
        simp [hxc, hxt, this]
      · simp [hxc, hxt]
  have wf1 : Wf s1 := by
    refine ⟨?_, ?_, ?_, ?_, ?_⟩
    · intro c p
      rw [hpar]
      show c ∈ set s.children t [] p ↔ _
      by_cases hp : p = t
      · subst hp
        rw [set_self]
        by_cases hc : c ∈ s.children p
        · simp [hc]
        · rw [if_neg hc, ← w.kids]; simp [hc]
      · rw [set_ne _ _ hp, w.kids]
        by_cases hc : c ∈ s.children t
        · rw [if_pos hc]
          have := (w.kids c t).1 hc
          rw [this]
          exact ⟨fun h => absurd (Option.some.inj h).symm hp, fun h => by cases h⟩
        · rw [if_neg hc]
    · intro p
      show (set s.children t [] p).Nodup
      by_cases hp : p = t
      · subst hp; rw [set_self]; exact List.nodup_nil
      · rw [set_ne _ _ hp]; exact w.kidsNodup p
    · show (s.roots.erase t ++ s.children t).Nodup
      rw [List.nodup_append]
      refine ⟨w.rootsNodup.erase _, w.kidsNodup t, ?_⟩
      intro a ha b hb
      rintro rfl
      have h1 := w.rootParent a (List.mem_of_mem_erase ha)
      rw [(w.kids a t).1 hb] at h1; cases h1
    · intro r hr
      rw [hpar]
      change r ∈ s.roots.erase t ++ s.children t at hr
      rcases List.mem_append.1 hr with h | h
      · split
        · rfl
        · exact w.rootParent r (List.mem_of_mem_erase h)
      · rw [if_pos h]
    · intro x hx
      obtain ⟨hx1, hx2⟩ := (hlive x).1 hx
      have := w.anch x hx1
      clear hx hx1
      induction this with
      | @root x hr => exact .root (List.mem_append.2 (.inl ((List.mem_erase_of_ne hx2).2 hr)))
      | @child x p h1 h2 ih =>
        by_cases hp : p = t
        · subst hp; exact .root (List.mem_append.2 (.inr ((w.kids x p).2 h1)))
        · refine .child (p := p) ?_ (ih hp)
          rw [hpar, if_neg]
          · exact h1
          · rw [w.kids, h1]
            exact fun h => hp (Option.some.inj h)
  have ord1 : Ord lo s1 := by
    intro x p hx
    rw [hpar] at hx
    split at hx
    · cases hx
    · exact ok.ord _ _ hx
  by_cases hc : s.count - 1 ≠ 0
  · have hcc : s1.count ≠ 0 := hc
    rw [if_pos hcc]
    obtain ⟨x, hx1, hx2⟩ := hcount.1 hc
    have hne : s1.roots ≠ [] := by
      intro h0
      have : ∀ y, ¬ Anch s1 y := by
        intro y hy
        induction hy with
        | root hr => rw [h0] at hr; cases hr
        | child _ _ ih => exact ih
      exact this x (wf1.anch x ((hlive x).2 ⟨hx1, hx2⟩))
    obtain ⟨c1, c2, c3, c4⟩ := consolidate_ok (g := g) L (s := s1) hlo (fun x hx => hP x ((hlive x).1 hx).1) wf1 ord1 hne f
    exact ⟨c1, fun x => (c2 x).trans (hlive x), c3, c4⟩
  · have hcc : ¬ s1.count ≠ 0 := hc
    rw [if_neg hcc]
    refine ⟨⟨top_wf wf1 _, ord1, .inl ⟨?_, rfl⟩⟩, fun x => hlive x, rfl, rfl⟩
    show s1.roots = []
    by_contra hne
    obtain ⟨r, hr⟩ := List.exists_mem_of_ne_nil _ hne
    have := (hlive r).1 (.inl hr)
    exact hc (hcount.2 ⟨r, this⟩)

theorem push_ok {F : Type} [Arith F] {g : Grid F} {lo' : Nat → Nat → Bool} {P' : Nat → Prop} (L' : Heap.Weak lo' P') {s : Fib} {x c : Nat} (hlo' : ∀ a b, Heap.cmp g (set s.cell x c a) (set s.cell x c b) = lo' a b)
    (ok : Ok lo s) (hx : ¬ Live s x) (hxc : s.children x = []) (hP' : ∀ y, Live s y ∨ y = x → P' y) (hagree : ∀ a b, a ≠ x → b ≠ x → lo' a b = lo a b) :
    Ok lo' (push g s x c) ∧ (∀ y, Live (push g s x c) y ↔ Live s y ∨ y = x) ∧ (push g s x c).cell = set s.cell x c ∧ (push g s x c).count = s.count + 1 := by
  have w := ok.wf
  have hpx : s.parent x = none := by
    by_contra h; exact hx (.inr h)
  have hnx : ∀ y p, s.parent y = some p → y ≠ x ∧ p ≠ x := by
    intro y p hy
    refine ⟨(by rintro rfl; rw [hpx] at hy; cases hy), ?_⟩
    rintro rfl; exact hx (w.parent_live hy)
  have epar : set s.parent x none = s.parent := by
    funext y
    by_cases hy : y = x
    · subst hy; rw [set_self, hpx]
    · rw [set_ne _ _ hy]
  have ekid : set s.children x [] = s.children := by
    funext y
    by_cases hy : y = x
    · subst hy; rw [set_self, hxc]
    · rw [set_ne _ _ hy]
  have hlive : ∀ y, (y ∈ x :: s.roots ∨ s.parent y ≠ none) ↔ Live s y ∨ y = x := by
    intro y
    unfold Live
    rw [List.mem_cons]
    tauto
  set tp : Option Nat := (match s.top with
    | none => some x
    | some t => if lo' t x then some x else some t) with htp
  have e : push g s x c = { s with cell := set s.cell x c, mark := set s.mark x false, roots := x :: s.roots, count := s.count + 1, top := tp } := by
    unfold push
    dsimp only
    rw [epar, ekid, htp]
    cases s.top with
    | none => rfl
    | some t =>
      dsimp only
      unfold low
      dsimp only
      rw [hlo']
  have hPx := hP' x (.inr rfl)
  rw [e]
  refine ⟨⟨⟨w.kids, w.kidsNodup, List.nodup_cons.2 ⟨fun h => hx (.inl h), w.rootsNodup⟩, ?_, ?_⟩, ?_, ?_⟩, hlive, rfl, rfl⟩
  · intro r hr
    rcases List.mem_cons.1 hr with rfl | hr
    · exact hpx
    · exact w.rootParent r hr
  · intro y hy
    rcases (hlive y).1 hy with h | rfl
    · have := w.anch y h
      clear hy h
      induction this with
      | root h => exact .root (List.mem_cons_of_mem _ h)
      | child h1 _ ih => exact .child h1 ih
    · exact .root List.mem_cons_self
  · intro y p hy
    obtain ⟨h1, h2⟩ := hnx y p hy
    rw [hagree _ _ h2 h1]; exact ok.ord y p hy
  · right
    rcases ok.top with ⟨h1, h2⟩ | ⟨t, h1, h2, h3⟩
    · rw [h2] at htp
      refine ⟨x, htp, List.mem_cons_self, ?_⟩
      intro y hy
      rcases (hlive y).1 hy with h | rfl
      · exfalso
        have : ∀ y, ¬ Anch s y := by
          intro y hy
          induction hy with
          | root hr => rw [h1] at hr; cases hr
          | child _ _ ih => exact ih
        exact this y (w.anch y h)
      · exact irrefl L' hPx
    · rw [h1] at htp
      dsimp only at htp
      have htx : t ≠ x := by rintro rfl; exact hx (.inl h2)
      have hPt := hP' t (.inl (.inl h2))
      by_cases hc : lo' t x = true
      · rw [if_pos hc] at htp
        refine ⟨x, htp, List.mem_cons_self, ?_⟩
        intro y hy
        rcases (hlive y).1 hy with h | rfl
        · by_cases hyx : y = x
          · subst hyx; exact irrefl L' hPx
          · exact L'.trans _ _ _ hPx hPt (hP' y (.inl h)) (L'.asymm _ _ hPt hPx hc) (by rw [hagree _ _ htx hyx]; exact h3 y h)
        · exact irrefl L' hPx
      · rw [if_neg hc] at htp
        refine ⟨t, htp, List.mem_cons_of_mem _ h2, ?_⟩
        intro y hy
        rcases (hlive y).1 hy with h | rfl
        · by_cases hyx : y = x
          · subst hyx; simpa using hc
          · rw [hagree _ _ htx hyx]; exact h3 y h
        · simpa using hc

end Fib
end FMV
