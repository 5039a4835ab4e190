import Verif.Spec.Band
import Verif.Lemmas.FMMBasic
import Mathlib.Data.List.Perm.Basic
/-! FMM with an explicit narrow band that meets the contract of `Spec.Used` is simulated by the bag model. -/
namespace FMV
open Arith Spec
variable {F : Type} [Arith F] {B : Type}
namespace FMM

/-- the explicit state `c` and the bag state `s` agree -/
def Rel (N : Band F B) (b0 : B) (W : F → Prop) (n : Nat) (c : BSt F B) (s : St F) : Prop :=
  c.g = s.g ∧ c.stop = s.stop ∧ ∃ l, Used N b0 W n c.g c.b l ∧ l.Perm s.heap

/-- visiting `j` respects the contract of the narrow band -/
structure Safe (cfg : Cfg F) (eik : Eik F) (W : F → Prop) (n : Nat) (s : St F) (j : Nat) : Prop where
  lt : j < n
  opn : s.g.state j = .opn → s.g.occ j = false → j ∉ s.heap
  nar : s.g.state j = .narrow → j ∈ s.heap
  wb : ∀ y ∈ s.heap, W (key s.g y)
  wa : ∀ y ∈ (relax cfg eik s j).heap, W (key (relax cfg eik s j).g y)
  low : s.g.state j = .narrow → s.g.occ j = false → better (eik s.g j).1 (s.g.value j) = true →
    Arith.lt (key s.g j) (key (relax cfg eik s j).g j) = false
  same : s.g.state j = .narrow → s.g.occ j = false → better (eik s.g j).1 (s.g.value j) = false →
    key (relax cfg eik s j).g j = key s.g j

theorem key_relax_ne {cfg : Cfg F} {eik : Eik F} {s : St F} {j k : Nat} (h : k ≠ j) : key (relax cfg eik s j).g k = key s.g k := by
  unfold key; rw [relax_cells_ne h]

theorem bRelax_g {N : Band F B} {cfg : Cfg F} (hd : cfg.dup = false) {eik : Eik F} {c : BSt F B} {s : St F} (hg : c.g = s.g)
    (hs : c.stop = s.stop) (j : Nat) : (bRelax N cfg eik c j).g = (relax cfg eik s j).g ∧ (bRelax N cfg eik c j).stop = (relax cfg eik s j).stop := by
  unfold bRelax relax
  rw [hg]
  split
  · exact ⟨hg, hs⟩
  · dsimp only
    split
    · split
      · exact ⟨rfl, hs⟩
      · exact ⟨rfl, hs⟩
    · exact ⟨rfl, hs⟩

theorem Rel.relax {N : Band F B} {b0 : B} {W : F → Prop} {n : Nat} {cfg : Cfg F} (hd : cfg.dup = false) {eik : Eik F} {c : BSt F B}
    {s : St F} (R : Rel N b0 W n c s) {j : Nat} (S : Safe cfg eik W n s j) :
    Rel N b0 W n (bRelax N cfg eik c j) (FMM.relax cfg eik s j) := by
  obtain ⟨hg, hs, l, u, hp⟩ := R
  obtain ⟨cg, cb, cs⟩ := c
  dsimp only at hg hs u
  subst hg hs
  have hgs := bRelax_g (N := N) hd (eik := eik) (c := ⟨s.g, cb, s.stop⟩) (s := s) rfl rfl j
  refine ⟨hgs.1, hgs.2, ?_⟩
  rw [hgs.1]
  have hsame : ∀ y ∈ l, y ≠ j → key (FMM.relax cfg eik s j).g y = key s.g y := fun y _ hy => key_relax_ne hy
  rcases relax_cases cfg eik s j with ⟨hsk, e⟩ | ⟨ho, hn, hb, e⟩ | ⟨ho, hn, hb, e⟩ | ⟨ho, hn, e⟩
  · refine ⟨l, ?_, by rw [e]; exact hp⟩
    rw [e]
    unfold bRelax; rw [if_pos hsk]; exact u
  · have hnot : ¬ (s.g.state j = .frozen ∨ s.g.occ j = true) := by rw [hn, ho]; simp
    have hbr : (bRelax N cfg eik ⟨s.g, cb, s.stop⟩ j).b = N.increase (FMM.relax cfg eik s j).g cb j := by
      rw [e]; unfold bRelax; rw [if_neg hnot]; dsimp only; rw [if_pos hn, if_pos hb]
    refine ⟨l, ?_, by rw [e, hd]; exact hp⟩
    rw [hbr]
    refine Used.lower _ j u (hp.mem_iff.2 (S.nar hn)) hsame (S.low hn ho hb) ?_
    intro y hy
    refine ⟨S.wb y (hp.mem_iff.1 hy), S.wa y ?_⟩
    rw [e, hd]; exact hp.mem_iff.1 hy
  · have hnot : ¬ (s.g.state j = .frozen ∨ s.g.occ j = true) := by rw [hn, ho]; simp
    have hbr : (bRelax N cfg eik ⟨s.g, cb, s.stop⟩ j).b = cb := by
      unfold bRelax; rw [if_neg hnot]; dsimp only; rw [if_pos hn, if_neg (by rw [hb]; simp)]
    refine ⟨l, ?_, by rw [e]; exact hp⟩
    rw [hbr]
    refine Used.change _ u ?_
    intro y hy
    by_cases hyj : y = j
    · subst hyj; exact S.same hn ho hb
    · exact hsame y hy hyj
  · have hnot : ¬ (s.g.state j = .frozen ∨ s.g.occ j = true) := by rw [hn, ho]; simp
    have hbr : (bRelax N cfg eik ⟨s.g, cb, s.stop⟩ j).b = N.push (FMM.relax cfg eik s j).g cb j := by
      rw [e]; unfold bRelax; rw [if_neg hnot]; dsimp only; rw [if_neg (by rw [hn]; simp)]
    have hjl : j ∉ l := fun h => S.opn hn ho (hp.mem_iff.1 h)
    refine ⟨j :: l, ?_, by rw [e]; exact hp.cons j⟩
    rw [hbr]
    refine Used.push j (Used.change _ u (fun y hy => hsame y hy (fun h => hjl (h ▸ hy)))) hjl S.lt ?_
    intro y hy
    refine S.wa y ?_
    rw [e]; exact (hp.cons j).mem_iff.1 hy

theorem Rel.fold {N : Band F B} {b0 : B} {W : F → Prop} {n : Nat} {cfg : Cfg F} (hd : cfg.dup = false) {eik : Eik F}
    {M : List Nat → St F → Prop} (hM : ∀ j rest s, M (j :: rest) s → Safe cfg eik W n s j ∧ M rest (FMM.relax cfg eik s j)) :
    ∀ (l : List Nat) (c : BSt F B) (s : St F), Rel N b0 W n c s → M l s →
      Rel N b0 W n (l.foldl (bRelax N cfg eik) c) (l.foldl (FMM.relax cfg eik) s) := by
  intro l
  induction l with
  | nil => intro c s R _; exact R
  | cons j l ih =>
    intro c s R m
    have := hM j l s m
    exact ih _ _ (R.relax hd this.1) this.2

theorem key_setState (g : Grid F) (i k : Nat) (st : FMState) : key (g.setState i st) k = key g k := by
  unfold key Grid.setState; rw [Grid.modify_cells]; split
  · next h => subst h; rfl
  · rfl

/-- what the band pops is a minimal element -/
theorem Rel.top {N : Band F B} {b0 : B} {W : F → Prop} {n : Nat} (hN : RightBand N b0 W n) {c : BSt F B} {s : St F}
    (R : Rel N b0 W n c s) (hne : s.heap ≠ []) (hW : ∀ y ∈ s.heap, W (key s.g y)) : IsTop s (N.popMinIdx c.g c.b).1 := by
  obtain ⟨hg, hs, l, u, hp⟩ := R
  have := (hN _ _ _ u).2 (fun h => hne (by rw [h] at hp; exact hp.nil_eq.symm)) (fun y hy => by rw [hg]; exact hW y (hp.mem_iff.1 hy))
  refine ⟨hp.mem_iff.1 this.1, fun y hy => ?_⟩
  have := this.2 y (hp.mem_iff.2 hy)
  rw [hg] at this ⊢
  exact this

theorem Rel.done {N : Band F B} {b0 : B} {W : F → Prop} {n : Nat} (hN : RightBand N b0 W n) {c : BSt F B} {s : St F}
    (R : Rel N b0 W n c s) : BDone N c ↔ Done s := by
  obtain ⟨hg, hs, l, u, hp⟩ := R
  unfold BDone Done
  rw [(hN _ _ _ u).1, hs]
  constructor
  · rintro (h | h)
    · exact .inl h
    · right; rw [h] at hp; exact hp.nil_eq.symm
  · rintro (h | h)
    · exact .inl h
    · right; rw [h] at hp; exact hp.eq_nil

/-- one iteration -/
theorem Rel.step {N : Band F B} {b0 : B} {W : F → Prop} {n : Nat} (hN : RightBand N b0 W n) {cfg : Cfg F} (hd : cfg.dup = false)
    {eik : Eik F} {c : BSt F B} {s : St F} (R : Rel N b0 W n c s) (hdone : ¬ Done s) (hW : ∀ y ∈ s.heap, W (key s.g y))
    {M : List Nat → St F → Prop} (hM : ∀ j rest s, M (j :: rest) s → Safe cfg eik W n s j ∧ M rest (FMM.relax cfg eik s j))
    (hM0 : ∀ x, IsTop s x → M (s.g.shape.nbrs x) (popped s x)) :
    IsTop s (N.popMinIdx c.g c.b).1 ∧ Rel N b0 W n (bStep N cfg eik c) (expand cfg eik s (N.popMinIdx c.g c.b).1) := by
  have hne : s.heap ≠ [] := fun h => hdone (Or.inr h)
  have ht := R.top hN hne hW
  refine ⟨ht, ?_⟩
  obtain ⟨hg, hs, l, u, hp⟩ := R
  have hlne : l ≠ [] := fun h => hne (by rw [h] at hp; exact hp.nil_eq.symm)
  have u' := Used.pop u hlne (fun y hy => by rw [hg]; exact hW y (hp.mem_iff.1 hy))
  have R1 : Rel N b0 W n ({ c with g := c.g.setState (N.popMinIdx c.g c.b).1 .frozen, b := (N.popMinIdx c.g c.b).2 } : BSt F B)
      (popped s (N.popMinIdx c.g c.b).1) := by
    refine ⟨by simp only [popped]; rw [hg], hs, _, Used.change _ u' (fun y _ => key_setState _ _ _ _), ?_⟩
    exact hp.erase _
  have R2 := Rel.fold (N := N) hd hM (s.g.shape.nbrs (N.popMinIdx c.g c.b).1) _ _ R1 (hM0 _ ht)
  have hsh : c.g.shape = s.g.shape := by rw [hg]
  unfold bStep
  dsimp only
  rw [hsh]
  refine ⟨R2.1, ?_, R2.2.2⟩
  show (if _ then true else _) = (expand cfg eik s _).stop
  unfold expand
  dsimp only
  rw [R2.2.1]
  rfl

end FMM
end FMV
