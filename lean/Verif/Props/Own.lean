import Verif.Spec.Own
import Mathlib.Tactic.Tauto
import Mathlib.Tactic.FinCases
/-!
# C73: memory is freed exactly once and never used afterwards
-/
set_option linter.unusedSectionVars false
set_option linter.unusedVariables false
namespace FMV
open FMV.Own FMV.Spec.Own
namespace Own

/-- who owns a block -/
inductive Thing where
  | sol (n : Nat) | grid (g : Nat)

/-- the blocks of a solver -/
def blocks (s : Sol) : List Nat :=
  match s.kind with
  | .plain => [s.self]
  | .ufmm => [s.self, s.q, s.p, s.t]
  | .fm2 | .fm2star => [s.self, s.q]

theorem put_same {α : Type} (f : Nat → α) (n : Nat) (v : α) : put f n v n = v := by simp [put]
theorem put_ne {α : Type} (f : Nat → α) {n k : Nat} (v : α) (h : k ≠ n) : put f n v k = f k := by simp [put, h]

theorem use_some {m : Mem} {b : Nat} (h : b ∈ m.live) : m.use b = some m := by simp [Mem.use, h]
theorem free_some {m : Mem} {b : Nat} (h : b ∈ m.live) : m.free b = some { m with live := m.live.erase b } := by simp [Mem.free, h]

theorem useSol_some {s : Sol} {m : Mem} (h : ∀ b ∈ blocks s, b ∈ m.live) : useSol s m = some m := by
  unfold useSol
  unfold blocks at h
  cases hk : s.kind <;> rw [hk] at h <;> simp at h <;> simp [Mem.use, h]

theorem setEnv_some {s : Sol} {g : Nat} {m : Mem} (h : ∀ b ∈ blocks s, b ∈ m.live) (hg : g ∈ m.live) :
    setEnv s g m = some ({ s with env := some g }, m) := by
  unfold setEnv
  unfold blocks at h
  cases hk : s.kind <;> rw [hk] at h <;> simp at h <;> simp [Mem.use, h, hg]

theorem setPoints_some {s : Sol} {m : Mem} (h : ∀ b ∈ blocks s, b ∈ m.live) (hg : s.kind = .fm2star → ∃ g, s.env = some g ∧ g ∈ m.live) :
    setPoints s m = some m := by
  unfold setPoints
  unfold blocks at h
  cases hk : s.kind <;> rw [hk] at h <;> simp at h <;> simp [Mem.use, h]
  obtain ⟨g, h1, h2⟩ := hg hk
  rw [h1]; simp [Mem.use, h, h2]

theorem runSol_some {s : Sol} {m : Mem} {g : Nat} (h : ∀ b ∈ blocks s, b ∈ m.live) (he : s.env = some g) (hg : g ∈ m.live) :
    runSol s m = some m := by
  unfold runSol
  rw [useSol_some h]
  simp [he, Mem.use, hg]

/-- `delete` of a solver frees exactly its blocks -/
theorem deleteSol_some {s : Sol} {m : Mem} (h : ∀ b ∈ blocks s, b ∈ m.live) (hn : (blocks s).Nodup) :
    ∃ m', deleteSol s m = some m' ∧ m'.next = m.next ∧ ∀ b, b ∈ m'.live ↔ b ∈ m.live ∧ b ∉ blocks s := by
  have key : ∀ k (self q p t : Nat) (env : Option Nat), s = ⟨k, self, q, p, t, env⟩ → ∃ m', deleteSol s m = some m' ∧ m'.next = m.next ∧
      ∀ b, b ∈ m'.live ↔ b ∈ m.live ∧ b ∉ blocks s := by
    intro k self q p t env hs
    subst hs
    cases k
    · simp only [blocks, List.mem_singleton, forall_eq] at h
      refine ⟨{ m with live := m.live.erase self }, ?_, rfl, ?_⟩
      · simp [deleteSol, clearSol, Mem.use, Mem.free, h]
      · intro b; simp [blocks]; tauto
    · simp [blocks] at h hn
      obtain ⟨h1, h2, h3, h4⟩ := h
      obtain ⟨⟨n1, n2, n3⟩, ⟨n4, n5⟩, n6⟩ := hn
      refine ⟨{ m with live := (((m.live.erase t).erase p).erase q).erase self }, ?_, rfl, ?_⟩
      · simp [deleteSol, clearSol, Mem.use, Mem.free, h1, h2, h3, h4, n1, n2, n3, n4, n5, n6]
      · intro b; simp [blocks]; tauto
    all_goals
      simp [blocks] at h hn
      obtain ⟨h1, h2⟩ := h
      refine ⟨{ m with live := (m.live.erase q).erase self }, ?_, rfl, ?_⟩
      · simp [deleteSol, clearSol, Mem.use, Mem.free, h1, h2, hn]
      · intro b; simp [blocks]; tauto
  exact key s.kind s.self s.q s.p s.t s.env rfl

/-- the memory part of the invariant -/
structure InvM (own : Nat → Thing) (S : Nat → Option SolL) (G : Nat → GridL) (w : World) : Prop where
  lt : ∀ b ∈ w.mem.live, b < w.mem.next
  sol : ∀ n s, S n = some s → ∃ x, w.sol n = some x ∧ x.kind = s.kind ∧ (blocks x).Nodup ∧
    (∀ b ∈ blocks x, b ∈ w.mem.live ∧ own b = .sol n) ∧
    ∀ g, s.env = some g → G g ≠ .unused ∧ ((∃ h, G g = .here h) → ∃ b, w.grid g = some b ∧ x.env = some b)
  grid : ∀ g h, G g = .here h → ∃ b, w.grid g = some b ∧ b ∈ w.mem.live ∧ own b = .grid g
  live : ∀ b ∈ w.mem.live, (∃ n s x, S n = some s ∧ w.sol n = some x ∧ b ∈ blocks x) ∨ ∃ g h, G g = .here h ∧ w.grid g = some b

theorem InvM.congr {own : Nat → Thing} {sol sol' : Nat → Option SolL} {grid grid' : Nat → GridL} {w : World} (I : InvM own sol grid w)
    (hs : ∀ n, (sol' n).map (fun s => (s.kind, s.env)) = (sol n).map (fun s => (s.kind, s.env)))
    (hg1 : ∀ g, grid' g = .unused ↔ grid g = .unused) (hg2 : ∀ g, (∃ h, grid' g = .here h) ↔ ∃ h, grid g = .here h) :
    InvM own sol' grid' w := by
  have hs' : ∀ n s', sol' n = some s' → ∃ s, sol n = some s ∧ s.kind = s'.kind ∧ s.env = s'.env := by
    intro n s' h
    have := hs n
    rw [h] at this
    cases h2 : sol n with
    | none => rw [h2] at this; simp at this
    | some s => rw [h2] at this; simp at this; exact ⟨s, rfl, this.1.symm, this.2.symm⟩
  have hs'' : ∀ n s, sol n = some s → ∃ s', sol' n = some s' := by
    intro n s h
    have := hs n
    rw [h] at this
    cases h2 : sol' n with
    | none => rw [h2] at this; simp at this
    | some s => exact ⟨s, rfl⟩
  refine ⟨I.lt, ?_, ?_, ?_⟩
  · intro n s' h
    obtain ⟨s, h1, h2, h3⟩ := hs' n s' h
    obtain ⟨x, k1, k2, k3, k4, k5⟩ := I.sol n s h1
    refine ⟨x, k1, k2.trans h2, k3, k4, ?_⟩
    intro g hg
    obtain ⟨q1, q2⟩ := k5 g (h3.trans hg)
    exact ⟨fun h => q1 ((hg1 g).1 h), fun h => q2 ((hg2 g).1 h)⟩
  · intro g h hh
    obtain ⟨h', hh'⟩ := (hg2 g).1 ⟨h, hh⟩
    exact I.grid g h' hh'
  · intro b hb
    rcases I.live b hb with ⟨n, s, x, h1, h2, h3⟩ | ⟨g, h, h1, h2⟩
    · obtain ⟨s', hs'⟩ := hs'' n s h1
      exact Or.inl ⟨n, s', x, hs', h2, h3⟩
    · obtain ⟨h', hh'⟩ := (hg2 g).2 ⟨h, h1⟩
      exact Or.inr ⟨g, h', hh', h2⟩

theorem newSol_spec (k : Kind) (m : Mem) (hlt : ∀ b ∈ m.live, b < m.next) :
    (newSol k m).1.kind = k ∧ (blocks (newSol k m).1).Nodup ∧ (newSol k m).1.env = none ∧
    (∀ b, b ∈ (newSol k m).2.live ↔ b ∈ m.live ∨ b ∈ blocks (newSol k m).1) ∧
    (∀ b ∈ blocks (newSol k m).1, m.next ≤ b) ∧ m.next ≤ (newSol k m).2.next ∧ ∀ b ∈ (newSol k m).2.live, b < (newSol k m).2.next := by
  cases k
  · simp only [newSol, blocks, Mem.alloc, Finset.mem_insert, List.mem_singleton]
    refine ⟨by trivial, by simp, by trivial, by tauto, by simp, by omega, ?_⟩
    rintro b (rfl | h)
    · omega
    · have := hlt b h; omega
  · simp only [newSol, blocks, Mem.alloc, Finset.mem_insert, List.mem_cons, List.not_mem_nil]
    refine ⟨by trivial, by simp; omega, by trivial, by tauto, by simp; omega, by omega, ?_⟩
    rintro b (rfl | rfl | rfl | rfl | h)
    · omega
    · omega
    · omega
    · omega
    · have := hlt b h; omega
  all_goals
    simp only [newSol, blocks, Mem.alloc, Finset.mem_insert, List.mem_cons, List.not_mem_nil]
    refine ⟨by trivial, by simp, by trivial, by tauto, by simp, by omega, ?_⟩
    rintro b (rfl | rfl | h)
    · omega
    · omega
    · have := hlt b h; omega

/-- a new solver -/
theorem InvM.addSol {own : Nat → Thing} {S : Nat → Option SolL} {G : Nat → GridL} {w : World} (I : InvM own S G w) {n : Nat} (k : Kind)
    (held : Option Nat) (hn : S n = none) : ∃ own', InvM own' (put S n (some ⟨k, none, held⟩)) G (w.addNew n k) := by
  obtain ⟨e1, e2, e3, e4, e5, e6, e7⟩ := newSol_spec k w.mem I.lt
  refine ⟨fun b => if w.mem.next ≤ b then .sol n else own b, e7, ?_, ?_, ?_⟩
  · intro n' s hs
    by_cases hnn : n' = n
    · subst hnn
      rw [put_same] at hs; cases hs
      refine ⟨(newSol k w.mem).1, put_same _ _ _, e1, e2, ?_, by simp⟩
      intro b hb
      exact ⟨(e4 b).2 (Or.inr hb), by rw [if_pos (e5 b hb)]⟩
    · rw [put_ne _ _ hnn] at hs
      obtain ⟨x, k1, k2, k3, k4, k5⟩ := I.sol n' s hs
      refine ⟨x, (put_ne _ _ hnn).trans k1, k2, k3, ?_, k5⟩
      intro b hb
      have := I.lt b (k4 b hb).1
      exact ⟨(e4 b).2 (Or.inl (k4 b hb).1), by rw [if_neg (by omega)]; exact (k4 b hb).2⟩
  · intro g h hg
    obtain ⟨b, h1, h2, h3⟩ := I.grid g h hg
    have := I.lt b h2
    exact ⟨b, h1, (e4 b).2 (Or.inl h2), by rw [if_neg (by omega)]; exact h3⟩
  · intro b hb
    rcases (e4 b).1 hb with hb | hb
    · rcases I.live b hb with ⟨n', s, x, h1, h2, h3⟩ | h
      · have hnn : n' ≠ n := by rintro rfl; rw [hn] at h1; cases h1
        exact Or.inl ⟨n', s, x, (put_ne _ _ hnn).trans h1, (put_ne _ _ hnn).trans h2, h3⟩
      · exact Or.inr h
    · exact Or.inl ⟨n, _, _, put_same _ _ _, put_same _ _ _, hb⟩

/-- a new grid -/
theorem InvM.addGrid {own : Nat → Thing} {S : Nat → Option SolL} {G : Nat → GridL} {w : World} (I : InvM own S G w) {g : Nat}
    (held : Option Nat) (hg : G g = .unused) :
    ∃ own', InvM own' S (put G g (.here held)) { w with grid := put w.grid g (some w.mem.alloc.1), mem := w.mem.alloc.2 } := by
  have hlive : ∀ b, b ∈ w.mem.alloc.2.live ↔ b = w.mem.next ∨ b ∈ w.mem.live := by intro b; simp [Mem.alloc]
  refine ⟨fun b => if w.mem.next ≤ b then .grid g else own b, ?_, ?_, ?_, ?_⟩
  · intro b hb
    show b < w.mem.next + 1
    rcases (hlive b).1 hb with rfl | h
    · omega
    · have := I.lt b h; omega
  · intro n s hs
    obtain ⟨x, k1, k2, k3, k4, k5⟩ := I.sol n s hs
    refine ⟨x, k1, k2, k3, ?_, ?_⟩
    · intro b hb
      have := I.lt b (k4 b hb).1
      exact ⟨(hlive b).2 (Or.inr (k4 b hb).1), by rw [if_neg (by omega)]; exact (k4 b hb).2⟩
    · intro g' hg'
      obtain ⟨q1, q2⟩ := k5 g' hg'
      have hne : g' ≠ g := by rintro rfl; exact q1 hg
      rw [put_ne _ _ hne]
      refine ⟨q1, fun h => ?_⟩
      obtain ⟨b, h1, h2⟩ := q2 h
      exact ⟨b, (put_ne _ _ hne).trans h1, h2⟩
  · intro g' h hg'
    by_cases hne : g' = g
    · subst hne
      exact ⟨w.mem.next, put_same _ _ _, (hlive _).2 (Or.inl rfl), by rw [if_pos (le_refl _)]⟩
    · rw [put_ne _ _ hne] at hg'
      obtain ⟨b, h1, h2, h3⟩ := I.grid g' h hg'
      have := I.lt b h2
      exact ⟨b, (put_ne _ _ hne).trans h1, (hlive b).2 (Or.inr h2), by rw [if_neg (by omega)]; exact h3⟩
  · intro b hb
    rcases (hlive b).1 hb with rfl | hb
    · exact Or.inr ⟨g, held, put_same _ _ _, put_same _ _ _⟩
    · rcases I.live b hb with h | ⟨g', h', h1, h2⟩
      · exact Or.inl h
      · have hne : g' ≠ g := by rintro rfl; rw [hg] at h1; cases h1
        exact Or.inr ⟨g', h', (put_ne _ _ hne).trans h1, (put_ne _ _ hne).trans h2⟩

/-- a solver is deleted -/
theorem InvM.delSol {own : Nat → Thing} {S : Nat → Option SolL} {G : Nat → GridL} {w : World} (I : InvM own S G w) {n : Nat} {s : SolL}
    (hn : S n = some s) : ∃ x m, w.sol n = some x ∧ deleteSol x w.mem = some m ∧ InvM own (put S n none) G { w with mem := m } := by
  obtain ⟨x, k1, k2, k3, k4, k5⟩ := I.sol n s hn
  obtain ⟨m, hm, hnext, hl⟩ := deleteSol_some (fun b hb => (k4 b hb).1) k3
  have hown : ∀ b, b ∈ w.mem.live → own b ≠ .sol n → b ∈ m.live := by
    intro b hb ho
    exact (hl b).2 ⟨hb, fun h => ho (k4 b h).2⟩
  refine ⟨x, m, k1, hm, ?_, ?_, ?_, ?_⟩
  · intro b hb
    show b < m.next
    rw [hnext]; exact I.lt b ((hl b).1 hb).1
  · intro n' s' hs'
    have hne : n' ≠ n := by rintro rfl; rw [put_same] at hs'; cases hs'
    rw [put_ne _ _ hne] at hs'
    obtain ⟨y, j1, j2, j3, j4, j5⟩ := I.sol n' s' hs'
    refine ⟨y, j1, j2, j3, ?_, j5⟩
    intro b hb
    refine ⟨hown b (j4 b hb).1 ?_, (j4 b hb).2⟩
    rw [(j4 b hb).2]; intro h; cases h; exact hne rfl
  · intro g h hg
    obtain ⟨b, h1, h2, h3⟩ := I.grid g h hg
    exact ⟨b, h1, hown b h2 (by rw [h3]; intro h; cases h), h3⟩
  · intro b hb
    obtain ⟨hb, hnb⟩ := (hl b).1 hb
    rcases I.live b hb with ⟨n', s', y, h1, h2, h3⟩ | h
    · have hne : n' ≠ n := by
        rintro rfl
        rw [k1] at h2; cases h2
        exact hnb h3
      exact Or.inl ⟨n', s', y, (put_ne _ _ hne).trans h1, h2, h3⟩
    · exact Or.inr h

/-- a grid is deleted -/
theorem InvM.delGrid {own : Nat → Thing} {S : Nat → Option SolL} {G : Nat → GridL} {w : World} (I : InvM own S G w) {g : Nat} {h : Option Nat}
    (hg : G g = .here h) : ∃ p m, w.grid g = some p ∧ w.mem.free p = some m ∧ InvM own S (put G g .gone) { w with mem := m } := by
  obtain ⟨p, k1, k2, k3⟩ := I.grid g h hg
  refine ⟨p, _, k1, free_some k2, ?_, ?_, ?_, ?_⟩
  · intro b hb
    exact I.lt b (Finset.mem_of_mem_erase hb)
  · intro n s hs
    obtain ⟨y, j1, j2, j3, j4, j5⟩ := I.sol n s hs
    refine ⟨y, j1, j2, j3, ?_, ?_⟩
    · intro b hb
      refine ⟨Finset.mem_erase.2 ⟨?_, (j4 b hb).1⟩, (j4 b hb).2⟩
      rintro rfl
      rw [(j4 b hb).2] at k3; cases k3
    · intro g' hg'
      obtain ⟨q1, q2⟩ := j5 g' hg'
      by_cases hne : g' = g
      · subst hne; rw [put_same]; exact ⟨by simp, by simp⟩
      · rw [put_ne _ _ hne]; exact ⟨q1, q2⟩
  · intro g' h' hg'
    have hne : g' ≠ g := by rintro rfl; rw [put_same] at hg'; cases hg'
    rw [put_ne _ _ hne] at hg'
    obtain ⟨b, h1, h2, h3⟩ := I.grid g' h' hg'
    refine ⟨b, h1, Finset.mem_erase.2 ⟨?_, h2⟩, h3⟩
    rintro rfl
    rw [h3] at k3; cases k3; exact hne rfl
  · intro b hb
    obtain ⟨hbp, hb⟩ := Finset.mem_erase.1 hb
    rcases I.live b hb with h | ⟨g', h', h1, h2⟩
    · exact Or.inl h
    · have hne : g' ≠ g := by
        rintro rfl
        rw [k1] at h2; cases h2; exact hbp rfl
      exact Or.inr ⟨g', h', (put_ne _ _ hne).trans h1, h2⟩

/-- a solver gets another grid -/
theorem InvM.env {own : Nat → Thing} {S : Nat → Option SolL} {G : Nat → GridL} {w : World} (I : InvM own S G w) {n g p : Nat} {s : SolL} {x : Sol}
    (hn : S n = some s) (hx : w.sol n = some x) (hg : ∃ h, G g = .here h) (hp : w.grid g = some p) :
    InvM own (put S n (some { s with env := some g })) G { w with sol := put w.sol n (some { x with env := some p }) } := by
  have hbl : blocks { x with env := some p } = blocks x := rfl
  refine ⟨I.lt, ?_, I.grid, ?_⟩
  · intro n' s' hs'
    by_cases hne : n' = n
    · subst hne
      rw [put_same] at hs'; cases hs'
      obtain ⟨y, j1, j2, j3, j4, j5⟩ := I.sol n' s hn
      rw [hx] at j1; cases j1
      refine ⟨_, put_same _ _ _, j2, j3, j4, ?_⟩
      intro g' hg'
      cases hg'
      obtain ⟨h, hg⟩ := hg
      exact ⟨by rw [hg]; simp, fun _ => ⟨p, hp, rfl⟩⟩
    · rw [put_ne _ _ hne] at hs'
      obtain ⟨y, j1, j2⟩ := I.sol n' s' hs'
      exact ⟨y, (put_ne _ _ hne).trans j1, j2⟩
  · intro b hb
    rcases I.live b hb with ⟨n', s', y, h1, h2, h3⟩ | h
    · by_cases hne : n' = n
      · subst hne
        rw [hx] at h2; cases h2
        exact Or.inl ⟨n', _, _, put_same _ _ _, put_same _ _ _, h3⟩
      · exact Or.inl ⟨n', s', y, (put_ne _ _ hne).trans h1, (put_ne _ _ hne).trans h2, h3⟩
    · exact Or.inr h

/-- several solvers are deleted -/
theorem InvM.delAll {own : Nat → Thing} {G : Nat → GridL} : ∀ (ns : List Nat) {S : Nat → Option SolL} {w : World}, InvM own S G w → ns.Nodup →
    (∀ n ∈ ns, ∃ s, S n = some s) → ∃ m S', deleteAll w.sol ns w.mem = some m ∧ (∀ n, S' n = if n ∈ ns then none else S n) ∧
      InvM own S' G { w with mem := m } := by
  intro ns
  induction ns with
  | nil => intro S w I _ _; exact ⟨w.mem, S, rfl, by simp, I⟩
  | cons n ns ih =>
    intro S w I hnd hall
    obtain ⟨hn, hnd⟩ := List.nodup_cons.1 hnd
    obtain ⟨s, hs⟩ := hall n (by simp)
    obtain ⟨x, m, h1, h2, I'⟩ := I.delSol hs
    obtain ⟨m', S', h3, h4, I''⟩ := ih I' hnd (by
      intro k hk
      have hne : k ≠ n := fun e => hn (e ▸ hk)
      rw [put_ne _ _ hne]
      exact hall k (by simp [hk]))
    refine ⟨m', S', ?_, ?_, I''⟩
    · simp only [deleteAll, h1, h2, Option.bind_some]; exact h3
    · intro k
      rw [h4 k]
      by_cases hk : k = n
      · subst hk; simp [hn, put_same]
      · simp [hk, put_ne]

/-- several solvers get a grid -/
theorem InvM.config {own : Nat → Thing} {G : Nat → GridL} {g p : Nat} (hg : ∃ h, G g = .here h) : ∀ (ns : List Nat) {S : Nat → Option SolL} {w : World},
    InvM own S G w → ns.Nodup → (∀ n ∈ ns, ∃ s, S n = some s) → w.grid g = some p → ∃ w' S', configAll p ns w = some w' ∧
      (∀ n, S' n = if n ∈ ns then (S n).map (fun s => { s with env := some g }) else S n) ∧ InvM own S' G w' ∧
      w'.grid = w.grid ∧ w'.ben = w.ben ∧ w'.mem = w.mem := by
  intro ns
  induction ns with
  | nil => intro S w I _ _ _; exact ⟨w, S, rfl, by simp, I, rfl, rfl, rfl⟩
  | cons n ns ih =>
    intro S w I hnd hall hp
    obtain ⟨hn, hnd⟩ := List.nodup_cons.1 hnd
    obtain ⟨s, hs⟩ := hall n (by simp)
    obtain ⟨x, k1, k2, k3, k4, k5⟩ := I.sol n s hs
    have hpl : p ∈ w.mem.live := by
      obtain ⟨h, hh⟩ := hg
      obtain ⟨b, b1, b2, _⟩ := I.grid g h hh
      rw [hp] at b1; cases b1; exact b2
    have e1 : setEnv x p w.mem = some ({ x with env := some p }, w.mem) := setEnv_some (fun b hb => (k4 b hb).1) hpl
    have e2 : setPoints { x with env := some p } w.mem = some w.mem :=
      setPoints_some (s := { x with env := some p }) (fun b hb => (k4 b hb).1) (fun _ => ⟨p, rfl, hpl⟩)
    have I' := I.env hs k1 hg hp
    obtain ⟨w', S', h3, h4, I'', h5, h6, h7⟩ := ih I' hnd (by
      intro k hk
      have hne : k ≠ n := fun e => hn (e ▸ hk)
      rw [put_ne _ _ hne]
      exact hall k (by simp [hk])) hp
    refine ⟨w', S', ?_, ?_, I'', h5, h6, h7⟩
    · simp only [configAll, k1, e1, e2, Option.bind_some]; exact h3
    · intro k
      rw [h4 k]
      by_cases hk : k = n
      · subst hk; simp [hn, put_same, hs]
      · simp [hk, put_ne]

/-- several solvers run -/
theorem InvM.runs {own : Nat → Thing} {S : Nat → Option SolL} {G : Nat → GridL} {w : World} (I : InvM own S G w) {g : Nat} (hg : ∃ h, G g = .here h) :
    ∀ (ns : List Nat), (∀ n ∈ ns, ∃ s, S n = some s ∧ s.env = some g) → runAll w.sol ns w.mem = some w.mem := by
  intro ns
  induction ns with
  | nil => intro _; rfl
  | cons n ns ih =>
    intro hall
    obtain ⟨s, hs, he⟩ := hall n (by simp)
    obtain ⟨x, k1, k2, k3, k4, k5⟩ := I.sol n s hs
    obtain ⟨p, hp, hxe⟩ := (k5 g he).2 hg
    obtain ⟨h, hh⟩ := hg
    obtain ⟨b, b1, b2, _⟩ := I.grid g h hh
    rw [hp] at b1; cases b1
    simp only [runAll, k1, runSol_some (fun b hb => (k4 b hb).1) hxe b2, Option.bind_some]
    exact ih (fun n hn => hall n (by simp [hn]))

/-- several solvers are created for a benchmark -/
theorem InvM.addAll {G : Nat → GridL} (held : Option Nat) : ∀ (ss : List (Nat × Kind)) {own : Nat → Thing} {S : Nat → Option SolL} {w : World},
    InvM own S G w → (ss.map Prod.fst).Nodup → (∀ e ∈ ss, S e.1 = none) →
    (∃ own', InvM own' (ss.foldl (fun f e => put f e.1 (some ⟨e.2, none, held⟩)) S) G (ss.foldl (fun w e => w.addNew e.1 e.2) w)) ∧
    (ss.foldl (fun w e => w.addNew e.1 e.2) w).grid = w.grid ∧ (ss.foldl (fun w e => w.addNew e.1 e.2) w).ben = w.ben := by
  intro ss
  induction ss with
  | nil => intro own S w I _ _; exact ⟨⟨own, I⟩, rfl, rfl⟩
  | cons e ss ih =>
    intro own S w I hnd hall
    rw [List.map_cons] at hnd
    obtain ⟨hn, hnd⟩ := List.nodup_cons.1 hnd
    obtain ⟨own', I'⟩ := I.addSol e.2 held (hall e (by simp))
    obtain ⟨h1, h2, h3⟩ := ih I' hnd (by
      intro e' he'
      have hne : e'.1 ≠ e.1 := fun h => hn (h ▸ List.mem_map_of_mem he')
      rw [put_ne _ _ hne]
      exact hall e' (by simp [he']))
    exact ⟨h1, h2, h3⟩

theorem foldl_put (held : Option Nat) : ∀ (ss : List (Nat × Kind)) (S : Nat → Option SolL), (ss.map Prod.fst).Nodup → ∀ n,
    (n ∉ ss.map Prod.fst → ss.foldl (fun f e => put f e.1 (some ⟨e.2, none, held⟩)) S n = S n) ∧
    (n ∈ ss.map Prod.fst → ∃ k, ss.foldl (fun f e => put f e.1 (some ⟨e.2, none, held⟩)) S n = some ⟨k, none, held⟩) := by
  intro ss
  induction ss with
  | nil => intro S _ n; simp
  | cons e ss ih =>
    intro S hnd n
    rw [List.map_cons] at hnd
    obtain ⟨hn, hnd⟩ := List.nodup_cons.1 hnd
    obtain ⟨h1, h2⟩ := ih (put S e.1 (some ⟨e.2, none, held⟩)) hnd n
    rw [List.foldl_cons, List.map_cons]
    constructor
    · intro h
      rw [List.mem_cons, not_or] at h
      rw [h1 h.2, put_ne _ _ h.1]
    · intro h
      by_cases hm : n ∈ ss.map Prod.fst
      · exact h2 hm
      · have : n = e.1 := by simpa [hm] using h
        rw [h1 hm, this, put_same]; exact ⟨_, rfl⟩

/-- the benchmark part of the invariant -/
structure InvB (l : Ledger) (w : World) : Prop where
  ben : ∀ b x, l.ben b = some x → ∃ y, w.ben b = some y ∧ y.solvers = x.solvers ∧ y.cfg = x.cfg ∧ x.solvers.Nodup ∧
    (∀ n, n ∈ x.solvers ↔ ∃ s, l.sol n = some s ∧ s.held = some b) ∧
    (∀ g, x.env = some g → l.grid g ≠ .unused ∧ ((∃ h, l.grid g = .here h) → ∃ p, w.grid g = some p ∧ y.env = some p)) ∧
    (x.cfg = true → ∃ g, x.env = some g ∧ l.grid g = .here (some b)) ∧ (∀ g, l.grid g = .here (some b) → x.cfg = true ∧ x.env = some g)
  none : ∀ b, l.ben b = none → (∀ n s, l.sol n = some s → s.held ≠ some b) ∧ ∀ g, l.grid g ≠ .here (some b)

/-- the invariant -/
def Inv (l : Ledger) (w : World) : Prop := (∃ own, InvM own l.sol l.grid w) ∧ InvB l w

theorem InvB.of {l l' : Ledger} {w w' : World} (B : InvB l w) (hb : l'.ben = l.ben) (wb : w'.ben = w.ben)
    (hs : ∀ n b, (∃ s, l'.sol n = some s ∧ s.held = some b) ↔ ∃ s, l.sol n = some s ∧ s.held = some b)
    (hg : ∀ g, l.grid g ≠ .unused → l'.grid g ≠ .unused ∧ ((∃ h, l'.grid g = .here h) → (∃ h, l.grid g = .here h) ∧ w'.grid g = w.grid g))
    (hh : ∀ g b, l'.grid g = .here (some b) ↔ l.grid g = .here (some b)) : InvB l' w' := by
  refine ⟨?_, ?_⟩
  · intro b x hx
    rw [hb] at hx
    obtain ⟨y, h1, h2, h3, h4, h5, h6, h7, h8⟩ := B.ben b x hx
    refine ⟨y, by rw [wb]; exact h1, h2, h3, h4, fun n => (h5 n).trans (hs n b).symm, ?_, ?_, fun g h => h8 g ((hh g b).1 h)⟩
    · intro g hge
      obtain ⟨q1, q2⟩ := h6 g hge
      obtain ⟨r1, r2⟩ := hg g q1
      refine ⟨r1, fun h => ?_⟩
      obtain ⟨r3, r4⟩ := r2 h
      rw [r4]; exact q2 r3
    · intro hc
      obtain ⟨g, q1, q2⟩ := h7 hc
      exact ⟨g, q1, (hh g b).2 q2⟩
  · intro b hn
    rw [hb] at hn
    obtain ⟨h1, h2⟩ := B.none b hn
    refine ⟨?_, fun g h => h2 g ((hh g b).1 h)⟩
    intro n s hs' hh'
    obtain ⟨s0, k1, k2⟩ := (hs n b).1 ⟨s, hs', hh'⟩
    exact h1 n s0 k1 k2

/-- what a benchmark frees -/
theorem benClear_inv {own : Nat → Thing} {l : Ledger} {w : World} (I : InvM own l.sol l.grid w) (B : InvB l w) {b : Nat} {x : BenL}
    (hx : l.ben b = some x) : ∃ y m, w.ben b = some y ∧ y.cfg = x.cfg ∧ y.solvers = x.solvers ∧ benClear y w.sol w.mem = some m ∧
      InvM own (l.release b).sol (l.release b).grid { w with mem := m } := by
  obtain ⟨y, h1, h2, h3, h4, h5, h6, h7, h8⟩ := B.ben b x hx
  obtain ⟨m, S', d1, d2, I'⟩ := I.delAll x.solvers h4 (fun n hn => by obtain ⟨s, hs, _⟩ := (h5 n).1 hn; exact ⟨s, hs⟩)
  have hS : S' = (l.release b).sol := by
    funext n
    rw [d2 n]
    show _ = (l.sol n).bind _
    by_cases hn : n ∈ x.solvers
    · obtain ⟨s, hs, hh⟩ := (h5 n).1 hn
      simp [hn, hs, hh]
    · cases hs : l.sol n with
      | none => simp [hn]
      | some s =>
        have : s.held ≠ some b := fun hh => hn ((h5 n).2 ⟨s, hs, hh⟩)
        simp [hn, this]
  rw [hS] at I'
  cases hc : x.cfg with
  | false =>
    have hG : (l.release b).grid = l.grid := by
      funext g
      show (match l.grid g with | .here (some c) => if c = b then GridL.gone else .here (some c) | x => x) = _
      split
      · rename_i c hcg
        split
        · next e => subst e; have := (h8 g hcg).1; rw [hc] at this; cases this
        · exact hcg.symm
      · rfl
    rw [hG]
    refine ⟨y, m, h1, h3.trans hc, h2, ?_, I'⟩
    unfold benClear
    rw [h2, d1, h3, hc]; rfl
  | true =>
    obtain ⟨g, e1, e2⟩ := h7 hc
    obtain ⟨p, m', f1, f2, I''⟩ := I'.delGrid e2
    have hG : (l.release b).grid = put l.grid g .gone := by
      funext g'
      show (match l.grid g' with | .here (some c) => if c = b then GridL.gone else .here (some c) | x => x) = _
      by_cases hgg : g' = g
      · subst hgg; rw [e2, put_same]; simp
      · rw [put_ne _ _ hgg]
        split
        · rename_i c hcg
          split
          · next e => subst e; have := (h8 g' hcg).2; rw [e1] at this; cases this; exact absurd rfl hgg
          · exact hcg.symm
        · rfl
    rw [hG]
    obtain ⟨p', r1, r2⟩ := (h6 g e1).2 ⟨_, e2⟩
    have : p' = p := by have f1' : w.grid g = some p := f1; rw [r1] at f1'; exact Option.some.inj f1'
    subst this
    refine ⟨y, m', h1, h3.trans hc, h2, ?_, I''⟩
    unfold benClear
    rw [h2, d1, h3, hc, r2]
    exact f2

theorem release_ben {l : Ledger} {w w' : World} (B : InvB l w) {b : Nat} {x : BenL} (hx : l.ben b = some x) (nb : Option BenL) (ny : Option Ben)
    (hnb : (nb = none) ∨ (∃ y, x.cfg = false ∧ nb = some { x with solvers := [] } ∧ w.ben b = some y ∧ ny = some { y with solvers := [] }))
    (hw : w'.ben = put w.ben b ny) (hg : w'.grid = w.grid) :
    InvB { l.release b with ben := put l.ben b nb } w' := by
  have hrel : ∀ n s, (l.release b).sol n = some s ↔ l.sol n = some s ∧ s.held ≠ some b := by
    intro n s
    show (l.sol n).bind _ = some s ↔ _
    cases hs : l.sol n with
    | none => simp
    | some s0 =>
      simp only [Option.bind_some]
      split
      · next h => constructor
                  · intro h'; cases h'
                  · rintro ⟨h1, h2⟩; cases h1; exact absurd h h2
      · next h => constructor
                  · intro h'; cases h'; exact ⟨rfl, h⟩
                  · rintro ⟨h1, h2⟩; exact h1
  have hgr : ∀ g, ((l.release b).grid g = .unused ↔ l.grid g = .unused) ∧
      (∀ h, (l.release b).grid g = .here h ↔ l.grid g = .here h ∧ h ≠ some b) := by
    intro g
    show ((match l.grid g with | .here (some c) => if c = b then GridL.gone else .here (some c) | x => x) = GridL.unused ↔ _) ∧
      ∀ h, (match l.grid g with | .here (some c) => if c = b then GridL.gone else .here (some c) | x => x) = GridL.here h ↔ _
    cases hgg : l.grid g with
    | unused => simp
    | gone => simp
    | here h0 =>
      cases h0 with
      | none => 
        refine ⟨by simp, ?_⟩
        intro h
        simp only [GridL.here.injEq]
        constructor
        · rintro rfl; exact ⟨rfl, by simp⟩
        · exact fun h => h.1
      | some c =>
        dsimp only
        by_cases hcb : c = b
        · subst hcb
          refine ⟨by simp, ?_⟩
          intro h
          simp only [if_true, GridL.here.injEq, reduceCtorEq, false_iff]
          rintro ⟨rfl, h⟩; exact h rfl
        · refine ⟨by simp [hcb], ?_⟩
          intro h
          simp only [if_neg hcb, GridL.here.injEq]
          constructor
          · rintro rfl; exact ⟨rfl, by simpa using hcb⟩
          · exact fun h => h.1
  refine ⟨?_, ?_⟩
  · intro c z hz
    by_cases hcb : c = b
    · subst hcb
      rcases hnb with rfl | ⟨y, hcfg, rfl, hy, rfl⟩
      · simp [put_same] at hz
      · simp only [put_same, Option.some.injEq] at hz
        subst hz
        obtain ⟨y', h1, h2, h3, h4, h5, h6, h7, h8⟩ := B.ben c x hx
        rw [hy] at h1; cases h1
        refine ⟨({ y with solvers := [] } : Ben), by rw [hw]; exact put_same _ _ _, rfl, h3, by simp, ?_, ?_, ?_, ?_⟩
        · intro n
          constructor
          · intro h; cases h
          · rintro ⟨s, hs, hh⟩
            exact absurd hh ((hrel n s).1 hs).2
        · intro g hge
          obtain ⟨q1, q2⟩ := h6 g hge
          refine ⟨fun h => q1 ((hgr g).1.1 h), ?_⟩
          rintro ⟨h, hh⟩
          rw [hg]
          exact q2 ⟨h, ((hgr g).2 h).1 hh |>.1⟩
        · intro h; rw [hcfg] at h; cases h
        · intro g h
          exact absurd rfl (((hgr g).2 _).1 h).2
    · simp only [put_ne _ _ hcb] at hz
      obtain ⟨y, h1, h2, h3, h4, h5, h6, h7, h8⟩ := B.ben c z hz
      have hcb' : some c ≠ some b := by simpa using hcb
      refine ⟨y, by rw [hw, put_ne _ _ hcb]; exact h1, h2, h3, h4, ?_, ?_, ?_, ?_⟩
      · intro n
        rw [h5 n]
        constructor
        · rintro ⟨s, hs, hh⟩; exact ⟨s, (hrel n s).2 ⟨hs, by rw [hh]; exact hcb'⟩, hh⟩
        · rintro ⟨s, hs, hh⟩; exact ⟨s, ((hrel n s).1 hs).1, hh⟩
      · intro g hge
        obtain ⟨q1, q2⟩ := h6 g hge
        refine ⟨fun h => q1 ((hgr g).1.1 h), ?_⟩
        rintro ⟨h, hh⟩
        rw [hg]
        exact q2 ⟨h, ((hgr g).2 h).1 hh |>.1⟩
      · intro hc
        obtain ⟨g, q1, q2⟩ := h7 hc
        exact ⟨g, q1, ((hgr g).2 _).2 ⟨q2, hcb'⟩⟩
      · intro g h
        exact h8 g (((hgr g).2 _).1 h).1
  · intro c hc
    by_cases hcb : c = b
    · subst hcb
      exact ⟨fun n s hs => ((hrel n s).1 hs).2, fun g h => (((hgr g).2 _).1 h).2 rfl⟩
    · simp only [put_ne _ _ hcb] at hc
      obtain ⟨h1, h2⟩ := B.none c hc
      exact ⟨fun n s hs => h1 n s ((hrel n s).1 hs).1, fun g h => h2 g (((hgr g).2 _).1 h).1⟩

/-- One careful call is executed without undefined behaviour and keeps the invariant. -/
theorem Inv.step {l l' : Ledger} {c : Call} {w : World} (J : Inv l w) (h : Ok l c l') : ∃ w', exec w c = some w' ∧ Inv l' w' := by
  obtain ⟨⟨own, I⟩, B⟩ := J
  cases h with
  | newGrid hg =>
    rename_i g
    obtain ⟨own', I'⟩ := I.addGrid none hg
    refine ⟨_, rfl, ⟨own', I'⟩, B.of rfl rfl (fun _ _ => Iff.rfl) ?_ ?_⟩
    · intro g' hg'
      have hne : g' ≠ g := by rintro rfl; exact hg' hg
      simp only [put_ne _ _ hne, and_true]
      exact ⟨hg', fun h => h⟩
    · intro g' b
      by_cases hne : g' = g
      · subst hne; simp [put_same, hg]
      · simp [put_ne _ _ hne]
  | deleteGrid hg =>
    rename_i g
    obtain ⟨p, m, h1, h2, I'⟩ := I.delGrid hg
    refine ⟨{ w with mem := m }, by simp [exec, h1, h2], ⟨own, I'⟩, B.of rfl rfl (fun _ _ => Iff.rfl) ?_ ?_⟩
    · intro g' hg'
      by_cases hne : g' = g
      · subst hne; simp [put_same]
      · simp only [put_ne _ _ hne, and_true]; exact ⟨hg', fun h => h⟩
    · intro g' b
      by_cases hne : g' = g
      · subst hne; simp [put_same, hg]
      · simp [put_ne _ _ hne]
  | newSolver hn =>
    rename_i n k
    obtain ⟨own', I'⟩ := I.addSol k none hn
    refine ⟨_, rfl, ⟨own', I'⟩, B.of rfl rfl ?_ (fun g hg => ⟨hg, fun h => ⟨h, rfl⟩⟩) (fun _ _ => Iff.rfl)⟩
    intro n' b
    by_cases hne : n' = n
    · subst hne; simp [put_same, hn]
    · simp [put_ne _ _ hne]
  | setEnvironment hn hg =>
    rename_i n g s
    obtain ⟨x, k1, k2, k3, k4, k5⟩ := I.sol n s hn
    obtain ⟨h, hh⟩ := hg
    obtain ⟨p, p1, p2, p3⟩ := I.grid g h hh
    have e := setEnv_some (s := x) (fun b hb => (k4 b hb).1) p2
    refine ⟨{ w with sol := put w.sol n (some { x with env := some p }) }, by simp [exec, k1, p1, e],
      ⟨own, I.env hn k1 ⟨h, hh⟩ p1⟩, B.of rfl rfl ?_ (fun g hg => ⟨hg, fun h => ⟨h, rfl⟩⟩) (fun _ _ => Iff.rfl)⟩
    intro n' b
    by_cases hne : n' = n
    · subst hne; simp [put_same, hn]
    · simp [put_ne _ _ hne]
  | setPoints hn hstar =>
    rename_i n s
    obtain ⟨x, k1, k2, k3, k4, k5⟩ := I.sol n s hn
    have e := setPoints_some (s := x) (m := w.mem) (fun b hb => (k4 b hb).1) (by
      intro hk
      obtain ⟨g, g1, h, g2⟩ := hstar (k2.symm.trans hk)
      obtain ⟨p, p1, p2⟩ := (k5 g g1).2 ⟨h, g2⟩
      obtain ⟨p', q1, q2, q3⟩ := I.grid g h g2
      rw [p1] at q1; cases q1
      exact ⟨p, p2, q2⟩)
    exact ⟨w, by simp [exec, k1, e], ⟨own, I⟩, B⟩
  | run hn he hg =>
    rename_i n g s
    obtain ⟨x, k1, k2, k3, k4, k5⟩ := I.sol n s hn
    obtain ⟨p, p1, p2⟩ := (k5 g he).2 hg
    obtain ⟨h, hg⟩ := hg
    obtain ⟨p', q1, q2, q3⟩ := I.grid g h hg
    rw [p1] at q1; cases q1
    exact ⟨w, by simp [exec, k1, runSol_some (fun b hb => (k4 b hb).1) p2 q2], ⟨own, I⟩, B⟩
  | clear hn hk =>
    rename_i n s
    obtain ⟨x, k1, k2, k3, k4, k5⟩ := I.sol n s hn
    have hself : x.self ∈ w.mem.live := (k4 x.self (by unfold blocks; split <;> simp)).1
    refine ⟨w, ?_, ⟨own, I⟩, B⟩
    simp [exec, k1, clearSol, k2, hk, Mem.use, hself]
  | delete hn hh =>
    rename_i n s
    obtain ⟨x, m, h1, h2, I'⟩ := I.delSol hn
    refine ⟨{ w with mem := m }, by simp [exec, h1, h2], ⟨own, I'⟩, B.of rfl rfl ?_ (fun g hg => ⟨hg, fun h => ⟨h, rfl⟩⟩) (fun _ _ => Iff.rfl)⟩
    intro n' b
    by_cases hne : n' = n
    · subst hne; simp [put_same, hn, hh]
    · simp [put_ne _ _ hne]
  | newBench hb =>
    rename_i b
    obtain ⟨n1, n2⟩ := B.none b hb
    refine ⟨_, rfl, ⟨own, ⟨I.lt, I.sol, I.grid, I.live⟩⟩, ?_, ?_⟩
    · intro c x hx
      by_cases hcb : c = b
      · subst hcb
        simp only [put_same, Option.some.injEq] at hx
        subst hx
        refine ⟨⟨[], none, false⟩, put_same _ _ _, rfl, rfl, by simp, ?_, by simp, by simp, ?_⟩
        · intro n
          constructor
          · intro h; cases h
          · rintro ⟨s, hs, hh⟩; exact absurd hh (n1 n s hs)
        · intro g h; exact absurd h (n2 g)
      · simp only [put_ne _ _ hcb] at hx ⊢
        exact B.ben c x hx
    · intro c hc
      by_cases hcb : c = b
      · subst hcb; simp [put_same] at hc
      · simp only [put_ne _ _ hcb] at hc
        exact B.none c hc
  | addSolver hb hn hh =>
    rename_i b n x s
    obtain ⟨y, h1, h2, h3, h4, h5, h6, h7, h8⟩ := B.ben b x hb
    have hnot : n ∉ x.solvers := by
      intro hm
      obtain ⟨s', hs', hh'⟩ := (h5 n).1 hm
      rw [hn] at hs'; cases hs'; rw [hh] at hh'; cases hh'
    refine ⟨{ w with ben := put w.ben b (some { y with solvers := y.solvers ++ [n] }) }, by simp [exec, h1], ⟨own, ?_⟩, ?_, ?_⟩
    · have I' : InvM own l.sol l.grid { w with ben := put w.ben b (some { y with solvers := y.solvers ++ [n] }) } := ⟨I.lt, I.sol, I.grid, I.live⟩
      refine I'.congr ?_ (fun _ => Iff.rfl) (fun _ => Iff.rfl)
      intro n'
      by_cases hne : n' = n
      · subst hne; simp [put_same, hn]
      · simp [put_ne _ _ hne]
    · intro c z hz
      by_cases hcb : c = b
      · subst hcb
        simp only [put_same, Option.some.injEq] at hz
        subst hz
        refine ⟨{ y with solvers := y.solvers ++ [n] }, put_same _ _ _, by rw [h2], h3, ?_, ?_, h6, h7, h8⟩
        · rw [List.nodup_append]; simp [h4]; intro a ha e; exact hnot (e ▸ ha)
        · intro n'
          rw [List.mem_append, h5 n']
          by_cases hne : n' = n
          · subst hne; simp [put_same]
          · simp [put_ne _ _ hne, hne]
      · simp only [put_ne _ _ hcb] at hz ⊢
        obtain ⟨y', a1, a2, a3, a4, a5, a6, a7, a8⟩ := B.ben c z hz
        refine ⟨y', a1, a2, a3, a4, ?_, a6, a7, a8⟩
        intro n'
        rw [a5 n']
        by_cases hne : n' = n
        · subst hne; simp [put_same, hn, hh]; exact fun h => hcb h.symm
        · simp [put_ne _ _ hne]
    · intro c hc
      have hcb : c ≠ b := by rintro rfl; simp [put_same] at hc
      simp only [put_ne _ _ hcb] at hc
      obtain ⟨q1, q2⟩ := B.none c hc
      refine ⟨?_, q2⟩
      intro n' s' hs'
      by_cases hne : n' = n
      · subst hne; simp only [put_same, Option.some.injEq] at hs'; subst hs'; simpa using fun h => hcb h.symm
      · simp only [put_ne _ _ hne] at hs'; exact q1 n' s' hs'
  | benchEnv hb hc hg =>
    rename_i b g x
    obtain ⟨y, h1, h2, h3, h4, h5, h6, h7, h8⟩ := B.ben b x hb
    obtain ⟨h, hg⟩ := hg
    obtain ⟨p, p1, p2, p3⟩ := I.grid g h hg
    refine ⟨{ w with ben := put w.ben b (some { y with env := some p }) }, by simp [exec, h1, p1], ⟨own, ⟨I.lt, I.sol, I.grid, I.live⟩⟩, ?_, ?_⟩
    · intro c z hz
      by_cases hcb : c = b
      · subst hcb
        simp only [put_same, Option.some.injEq] at hz
        subst hz
        refine ⟨{ y with env := some p }, put_same _ _ _, h2, h3, h4, h5, ?_, ?_, ?_⟩
        · intro g' hg'
          cases hg'
          exact ⟨by rw [hg]; simp, fun _ => ⟨p, p1, rfl⟩⟩
        · intro h; rw [show ({ x with env := some g } : BenL).cfg = x.cfg from rfl, hc] at h; cases h
        · intro g' hg'; have := (h8 g' hg').1; rw [hc] at this; cases this
      · simp only [put_ne _ _ hcb] at hz ⊢
        exact B.ben c z hz
    · intro c hc
      have hcb : c ≠ b := by rintro rfl; simp [put_same] at hc
      simp only [put_ne _ _ hcb] at hc
      exact B.none c hc
  | configure hb hc hg hnd hall =>
    rename_i b g x ss
    obtain ⟨y, h1, h2, h3, h4, h5, h6, h7, h8⟩ := B.ben b x hb
    obtain ⟨⟨own1, I1⟩, g1, b1⟩ := I.addAll (some b) ss hnd hall
    obtain ⟨own2, I2⟩ := I1.addGrid (some b) hg
    refine ⟨{ (ss.foldl (fun w e => w.addNew e.1 e.2) w) with
        grid := put (ss.foldl (fun w e => w.addNew e.1 e.2) w).grid g (some (ss.foldl (fun w e => w.addNew e.1 e.2) w).mem.alloc.1),
        mem := (ss.foldl (fun w e => w.addNew e.1 e.2) w).mem.alloc.2,
        ben := put (ss.foldl (fun w e => w.addNew e.1 e.2) w).ben b (some ⟨y.solvers ++ ss.map Prod.fst,
          some (ss.foldl (fun w e => w.addNew e.1 e.2) w).mem.alloc.1, true⟩) },
      by simp only [exec, h1, Option.bind_some], ⟨own2, ⟨I2.lt, I2.sol, I2.grid, I2.live⟩⟩, ?_, ?_⟩
    · intro c z hz
      by_cases hcb : c = b
      · subst hcb
        simp only [put_same, Option.some.injEq] at hz
        subst hz
        refine ⟨⟨y.solvers ++ ss.map Prod.fst, some _, true⟩, put_same _ _ _, by rw [h2], rfl, ?_, ?_, ?_, ?_, ?_⟩
        · rw [List.nodup_append]
          refine ⟨h4, hnd, ?_⟩
          intro a ha b' hb' e
          subst e
          obtain ⟨s, hs, _⟩ := (h5 a).1 ha
          obtain ⟨e, he, rfl⟩ := List.mem_map.1 hb'
          rw [hall e he] at hs; cases hs
        · intro n
          obtain ⟨f1, f2⟩ := foldl_put (some c) ss l.sol hnd n
          rw [List.mem_append]
          by_cases hm : n ∈ ss.map Prod.fst
          · obtain ⟨k, hk⟩ := f2 hm
            simp only [hm, or_true, true_iff]
            exact ⟨_, hk, rfl⟩
          · dsimp only; rw [f1 hm, h5 n]; simp only [hm, or_false]
        · intro g' hg'
          cases hg'
          simp only [put_same]
          exact ⟨by simp, fun _ => ⟨_, rfl, rfl⟩⟩
        · intro _
          exact ⟨g, rfl, put_same _ _ _⟩
        · intro g' hg'
          refine ⟨rfl, ?_⟩
          by_cases hne : g' = g
          · subst hne; rfl
          · simp only [put_ne _ _ hne] at hg'
            have := (h8 g' hg').1; rw [hc] at this; cases this
      · simp only [put_ne _ _ hcb] at hz ⊢
        obtain ⟨y', a1, a2, a3, a4, a5, a6, a7, a8⟩ := B.ben c z hz
        refine ⟨y', by rw [b1]; exact a1, a2, a3, a4, ?_, ?_, ?_, ?_⟩
        · intro n
          obtain ⟨f1, f2⟩ := foldl_put (some b) ss l.sol hnd n
          rw [a5 n]
          by_cases hm : n ∈ ss.map Prod.fst
          · obtain ⟨k, hk⟩ := f2 hm
            obtain ⟨e, he, rfl⟩ := List.mem_map.1 hm
            rw [hk, hall e he]; simp; exact fun h => hcb h.symm
          · rw [f1 hm]
        · intro g' hg'
          obtain ⟨q1, q2⟩ := a6 g' hg'
          have hne : g' ≠ g := by rintro rfl; exact q1 hg
          simp only [put_ne _ _ hne]
          rw [g1]
          exact ⟨q1, q2⟩
        · intro hcc
          obtain ⟨g', q1, q2⟩ := a7 hcc
          have hne : g' ≠ g := by rintro rfl; rw [hg] at q2; cases q2
          exact ⟨g', q1, by simp only [put_ne _ _ hne]; exact q2⟩
        · intro g' hg'
          by_cases hne : g' = g
          · subst hne; simp only [put_same, GridL.here.injEq, Option.some.injEq] at hg'; exact absurd hg'.symm hcb
          · simp only [put_ne _ _ hne] at hg'; exact a8 g' hg'
    · intro c hc'
      have hcb : c ≠ b := by rintro rfl; simp [put_same] at hc'
      simp only [put_ne _ _ hcb] at hc'
      obtain ⟨q1, q2⟩ := B.none c hc'
      constructor
      · intro n s hs
        obtain ⟨f1, f2⟩ := foldl_put (some b) ss l.sol hnd n
        by_cases hm : n ∈ ss.map Prod.fst
        · obtain ⟨k, hk⟩ := f2 hm
          have hs' := hk.symm.trans hs
          cases hs'
          simpa using fun h => hcb h.symm
        · exact q1 n s ((f1 hm).symm.trans hs)
      · intro g' hg'
        by_cases hne : g' = g
        · subst hne; simp only [put_same, GridL.here.injEq, Option.some.injEq] at hg'; exact hcb hg'.symm
        · simp only [put_ne _ _ hne] at hg'; exact q2 g' hg'
  | benchRun hb he hg =>
    rename_i b g x
    obtain ⟨y, h1, h2, h3, h4, h5, h6, h7, h8⟩ := B.ben b x hb
    obtain ⟨p, p1, p2⟩ := (h6 g he).2 hg
    obtain ⟨w', S', c1, c2, I', c3, c4, c5⟩ := I.config hg x.solvers h4 (fun n hn => by obtain ⟨s, hs, _⟩ := (h5 n).1 hn; exact ⟨s, hs⟩) p1
    have hr := I'.runs hg x.solvers (by
      intro n hn
      obtain ⟨s, hs, _⟩ := (h5 n).1 hn
      exact ⟨{ s with env := some g }, by rw [c2 n]; simp [hn, hs], rfl⟩)
    have hpl : p ∈ w'.mem.live := by
      obtain ⟨h, hh⟩ := hg
      obtain ⟨q, q1, q2, _⟩ := I.grid g h hh
      rw [p1] at q1; cases q1; rw [c5]; exact q2
    have hS : S' = fun n => (l.sol n).map fun s => if s.held = some b then { s with env := some g } else s := by
      funext n
      rw [c2 n]
      by_cases hn : n ∈ x.solvers
      · obtain ⟨s, hs, hh⟩ := (h5 n).1 hn
        simp [hn, hs, hh]
      · cases hs : l.sol n with
        | none => simp [hn]
        | some s =>
          have : s.held ≠ some b := fun hh => hn ((h5 n).2 ⟨s, hs, hh⟩)
          simp [hn, this]
    refine ⟨w', ?_, ⟨own, by rw [hS] at I'; exact I'⟩, B.of rfl c4 ?_ (fun g hg => ⟨hg, fun h => ⟨h, by rw [c3]⟩⟩) (fun _ _ => Iff.rfl)⟩
    · simp only [exec, h1, p2, h2, c1, Option.bind_some, use_some hpl, hr]
    · intro n c
      show (∃ s, (l.sol n).map _ = some s ∧ _) ↔ _
      cases hs : l.sol n with
      | none => simp
      | some s =>
        simp only [Option.map_some, Option.some.injEq, exists_eq_left']
        split <;> rfl
  | benchClear hb hc =>
    rename_i b x
    obtain ⟨y, m, h1, h2, h3, h4, I'⟩ := benClear_inv I B hb
    refine ⟨{ w with mem := m, ben := put w.ben b (some { y with solvers := [] }) }, by simp [exec, h1, h4],
      ⟨own, ⟨I'.lt, I'.sol, I'.grid, I'.live⟩⟩, ?_⟩
    exact release_ben B hb _ _ (Or.inr ⟨y, hc, rfl, h1, rfl⟩) rfl rfl
  | benchDestroy hb =>
    rename_i b x
    obtain ⟨y, m, h1, h2, h3, h4, I'⟩ := benClear_inv I B hb
    refine ⟨{ w with mem := m, ben := put w.ben b none }, by simp [exec, h1, h4],
      ⟨own, ⟨I'.lt, I'.sol, I'.grid, I'.live⟩⟩, ?_⟩
    exact release_ben B hb _ _ (Or.inl rfl) rfl rfl

theorem execAll_append (cs : List Call) (c : Call) : ∀ w, execAll (cs ++ [c]) w = (execAll cs w).bind fun w => exec w c := by
  induction cs with
  | nil => intro w; simp [execAll]
  | cons d cs ih => intro w; simp only [List.cons_append, execAll]; cases exec w d <;> simp [ih]

theorem careful_inv {cs : List Call} {l : Ledger} (h : Careful cs l) : ∃ w, execAll cs start = some w ∧ Inv l w := by
  induction h with
  | nil =>
    refine ⟨start, rfl, ⟨fun _ => .sol 0, ?_, ?_, ?_, ?_⟩, ?_, ?_⟩
    · intro b hb; simp [start] at hb
    · intro n s h; cases h
    · intro g h hh; cases hh
    · intro b hb; simp [start] at hb
    · intro b x h; cases h
    · intro b _; exact ⟨fun n s h => by (cases h), fun g h => by (cases h)⟩
  | snoc hcs hok ih =>
    obtain ⟨w, h1, h2⟩ := ih
    obtain ⟨w', h3, h4⟩ := h2.step hok
    exact ⟨w', by rw [execAll_append, h1]; exact h3, h4⟩

/-- **C73**: a history of calls that respects the rules never uses or frees memory that does not exist, ... -/
theorem _root_.FMV.C73_no_bad_access (cs : List Call) (l : Ledger) (h : Careful cs l) : ∃ w, execAll cs start = some w := by
  obtain ⟨w, h1, _⟩ := careful_inv h
  exact ⟨w, h1⟩

/-- **C73**: ... and leaks nothing: when every solver has been deleted (by the program or by its benchmark) and every grid too, no block is left. -/
theorem _root_.FMV.C73_no_leak (cs : List Call) (l : Ledger) (h : Careful cs l) (he : l.empty) :
    ∃ w, execAll cs start = some w ∧ w.mem.live = ∅ := by
  obtain ⟨w, h1, ⟨own, I⟩, B⟩ := careful_inv h
  refine ⟨w, h1, ?_⟩
  rw [Finset.eq_empty_iff_forall_notMem]
  intro b hb
  rcases I.live b hb with ⟨n, s, x, k1, _⟩ | ⟨g, hh, k1, _⟩
  · rw [he.1 n] at k1; cases k1
  · exact he.2 g ⟨hh, k1⟩

/-- **C73** is false if `clear()` is called by the user, although it is public: `clear()` of a solver that owns memory (UFMM, FM2, FM2*) frees it and keeps the
pointer, so that in every program the next `reset()`, `compute()`, `clear()` or destruction of that solver is undefined behaviour. -/
theorem _root_.FMV.C73_refuted_clear (cs : List Call) (l : Ledger) (h : Careful cs l) (n : Nat) (s : SolL) (hn : l.sol n = some s)
    (hk : s.kind ≠ .plain) (next : Call) (hc : next = .run n ∨ next = .clear n ∨ next = .delete n) :
    (∃ w, execAll (cs ++ [.clear n]) start = some w) ∧ execAll (cs ++ [.clear n] ++ [next]) start = none := by
  obtain ⟨w, h1, ⟨own, I⟩, B⟩ := careful_inv h
  obtain ⟨x, k1, k2, k3, k4, k5⟩ := I.sol n s hn
  have hx : x.kind ≠ .plain := by rw [k2]; exact hk
  obtain ⟨k, self, q, p, t, env⟩ := x
  have key : ∃ m, clearSol ⟨k, self, q, p, t, env⟩ w.mem = some m ∧ q ∉ m.live := by
    cases k
    · exact absurd rfl hx
    · simp [blocks] at k3 k4
      obtain ⟨⟨n1, n2, n3⟩, ⟨n4, n5⟩, n6⟩ := k3
      exact ⟨{ w.mem with live := ((w.mem.live.erase t).erase p).erase q },
        by simp [clearSol, Mem.use, Mem.free, k4, n1, n2, n3, n4, n5, n6], by simp⟩
    all_goals
      simp [blocks] at k3 k4
      exact ⟨{ w.mem with live := w.mem.live.erase q }, by simp [clearSol, Mem.use, Mem.free, k4, k3], by simp⟩
  obtain ⟨m, hm, hq⟩ := key
  have e1 : execAll (cs ++ [.clear n]) start = some { w with mem := m } := by
    rw [execAll_append, h1]; simp [exec, k1, hm]
  refine ⟨⟨_, e1⟩, ?_⟩
  rw [execAll_append, e1]
  have huse : useSol ⟨k, self, q, p, t, env⟩ m = none := by
    cases k
    · exact absurd rfl hx
    all_goals simp [useSol, Mem.use, hq]
  have hclr : clearSol ⟨k, self, q, p, t, env⟩ m = none := by
    cases k
    · exact absurd rfl hx
    all_goals simp [clearSol, Mem.use, hq]
  rcases hc with rfl | rfl | rfl
  · simp [exec, k1, runSol, huse]
  · simp [exec, k1, hclr]
  · simp [exec, k1, deleteSol, hclr]

/-- **C73** is false for `Benchmark::clear()` ("Clears and free memory allocated by the benchmark") of a benchmark configured from a file: the grid is freed again when
the benchmark goes out of scope. -/
theorem _root_.FMV.C73_refuted_benchmark_clear (cs : List Call) (l : Ledger) (h : Careful cs l) (b : Nat) (x : BenL) (hb : l.ben b = some x)
    (hc : x.cfg = true) : (∃ w, execAll (cs ++ [.benchClear b]) start = some w) ∧
      execAll (cs ++ [.benchClear b] ++ [.benchDestroy b]) start = none := by
  obtain ⟨w, h1, ⟨own, I⟩, B⟩ := careful_inv h
  obtain ⟨y, m, j1, j2, j3, j4, I'⟩ := benClear_inv I B hb
  obtain ⟨y', a1, a2, a3, a4, a5, a6, a7, a8⟩ := B.ben b x hb
  rw [j1] at a1; cases a1
  obtain ⟨g, e1, e2⟩ := a7 hc
  obtain ⟨p, p1, p2⟩ := (a6 g e1).2 ⟨_, e2⟩
  have hx : execAll (cs ++ [.benchClear b]) start = some { w with mem := m, ben := put w.ben b (some { y with solvers := [] }) } := by
    rw [execAll_append, h1]; simp [exec, j1, j4]
  refine ⟨⟨_, hx⟩, ?_⟩
  rw [execAll_append, hx]
  have hcy : y.cfg = true := j2.trans hc
  have hfree : m.free p = none := by
    unfold benClear at j4
    rw [hcy, p2] at j4
    cases hd : deleteAll w.sol y.solvers w.mem with
    | none => rw [hd] at j4; simp at j4
    | some m0 =>
      rw [hd] at j4
      simp only [Option.bind_some, if_true] at j4
      unfold Mem.free at j4
      split at j4
      · cases j4; simp [Mem.free]
      · cases j4
  simp [exec, put_same, benClear, deleteAll, hcy, p2, hfree]

/-- ... and if the points of an FM2* are set before its grid: `setInitialAndGoalPoints` computes the distances on a grid that is not there (the base class and all other
solvers allow that order). -/
theorem _root_.FMV.C73_refuted_fm2star_points (cs : List Call) (l : Ledger) (h : Careful cs l) (n : Nat) (k : Kind) (hn : l.sol n = none) :
    (execAll (cs ++ [.newSolver n k] ++ [.setPoints n]) start).isNone ↔ k = .fm2star := by
  obtain ⟨w, h1, ⟨own, I⟩, B⟩ := careful_inv h
  rw [execAll_append, execAll_append, h1]
  obtain ⟨e1, e2, e3, e4, e5, e6, e7⟩ := newSol_spec k w.mem I.lt
  simp only [Option.bind_some, exec, World.addNew, put_same, execAll, Own.setPoints]
  have hself : (newSol k w.mem).2.use (newSol k w.mem).1.self = some (newSol k w.mem).2 := by
    unfold Mem.use
    rw [if_pos ((e4 _).2 (Or.inr (by unfold blocks; cases (newSol k w.mem).1.kind <;> simp)))]
  rw [hself, e1, e3]
  cases k <;> simp

/-- ... and if a solver is given to no grid: `compute()` and `reset()` read the uninitialised pointer `grid_`, although `sanityChecks()` means to reject that. -/
theorem _root_.FMV.C73_refuted_no_environment (cs : List Call) (l : Ledger) (h : Careful cs l) (n : Nat) (k : Kind) (hn : l.sol n = none) :
    execAll (cs ++ [.newSolver n k] ++ [.run n]) start = none := by
  obtain ⟨w, h1, ⟨own, I⟩, B⟩ := careful_inv h
  rw [execAll_append, execAll_append, h1]
  obtain ⟨e1, e2, e3, e4, e5, e6, e7⟩ := newSol_spec k w.mem I.lt
  simp only [Option.bind_some, exec, World.addNew, put_same, runSol]
  rw [useSol_some (fun b hb => (e4 b).2 (Or.inr hb)), e3]
  rfl

/-- non-vacuity: a program with two solvers of its own, a benchmark with two solvers and a benchmark configured from a file, which frees everything -/
example : ∃ l, Careful ([.newGrid 0, .newSolver 0 .ufmm, .setEnvironment 0 0, .run 0, .newSolver 1 .fm2star, .setEnvironment 1 0, .setPoints 1, .run 1, .newBench 0,
      .addSolver 0 0, .benchEnv 0 0, .benchRun 0, .newBench 1, .configure 1 [(2, .ufmm), (3, .plain)] 1, .benchRun 1, .benchDestroy 1, .benchDestroy 0,
      .delete 1, .deleteGrid 0]) l ∧ l.empty := by
  have h0 := Careful.nil
  have h1 := h0.snoc (Ok.newGrid (g := 0) rfl)
  have h2 := h1.snoc (Ok.newSolver (n := 0) (k := .ufmm) rfl)
  have h3 := h2.snoc (Ok.setEnvironment (n := 0) (g := 0) rfl ⟨_, rfl⟩)
  have h4 := h3.snoc (Ok.run (n := 0) rfl rfl ⟨_, rfl⟩)
  have h5 := h4.snoc (Ok.newSolver (n := 1) (k := .fm2star) rfl)
  have h6 := h5.snoc (Ok.setEnvironment (n := 1) (g := 0) rfl ⟨_, rfl⟩)
  have h7 := h6.snoc (Ok.setPoints (n := 1) rfl (fun _ => ⟨0, rfl, _, rfl⟩))
  have h8 := h7.snoc (Ok.run (n := 1) rfl rfl ⟨_, rfl⟩)
  have h9 := h8.snoc (Ok.newBench (b := 0) rfl)
  have h10 := h9.snoc (Ok.addSolver (b := 0) (n := 0) rfl rfl rfl)
  have h11 := h10.snoc (Ok.benchEnv (b := 0) (g := 0) rfl rfl ⟨_, rfl⟩)
  have h12 := h11.snoc (Ok.benchRun (b := 0) rfl rfl ⟨_, rfl⟩)
  have h13 := h12.snoc (Ok.newBench (b := 1) rfl)
  have h14 := h13.snoc (Ok.configure (b := 1) (g := 1) (ss := [(2, .ufmm), (3, .plain)]) rfl rfl rfl (by decide)
    (by intro e he; fin_cases he <;> rfl))
  have h15 := h14.snoc (Ok.benchRun (b := 1) rfl rfl ⟨_, rfl⟩)
  have h16 := h15.snoc (Ok.benchDestroy (b := 1) rfl)
  have h17 := h16.snoc (Ok.benchDestroy (b := 0) rfl)
  have h18 := h17.snoc (Ok.delete (n := 1) rfl rfl)
  have h19 := h18.snoc (Ok.deleteGrid (g := 0) rfl)
  refine ⟨_, h19, ?_, ?_⟩
  · intro n
    by_cases n0 : n = 0
    · subst n0; rfl
    by_cases n1 : n = 1
    · subst n1; rfl
    by_cases n2 : n = 2
    · subst n2; rfl
    by_cases n3 : n = 3
    · subst n3; rfl
    simp [Ledger.release, put, n0, n1, n2, n3]
  · intro g
    by_cases n0 : g = 0
    · subst n0; rintro ⟨h, hh⟩; cases hh
    by_cases n1 : g = 1
    · subst n1; rintro ⟨h, hh⟩; cases hh
    rintro ⟨h, hh⟩
    simp [Ledger.release, put, n0, n1] at hh

end Own
end FMV
