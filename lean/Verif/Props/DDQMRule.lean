import Verif.Props.DDQM
import Verif.Spec.DDQMRule
import Verif.Model.Solver
import Verif.Props.AvgSpeed
import Verif.Model.F64
/-!
# C72: the dynamic threshold of DDQM
-/
set_option linter.unusedSectionVars false
set_option linter.unusedVariables false
namespace FMV
open Spec Shape XR FMM
variable {F : Type} [Arith F]
namespace DDQM

theorem low_setLow (s : St F) (q) : (s.setLow q).low = q := by unfold St.setLow St.low; split <;> simp_all
theorem high_setLow (s : St F) (q) : (s.setLow q).high = s.high := by unfold St.setLow St.high; split <;> simp_all
theorem low_setHigh (s : St F) (q) : (s.setHigh q).low = s.low := by unfold St.setHigh St.low; split <;> simp_all
theorem high_setHigh (s : St F) (q) : (s.setHigh q).high = q := by unfold St.setHigh St.high; split <;> simp_all
@[simp] theorem setLow_lq (s : St F) (q) : (s.setLow q).lq = s.lq := by unfold St.setLow; split <;> rfl
@[simp] theorem setHigh_lq (s : St F) (q) : (s.setHigh q).lq = s.lq := by unfold St.setHigh; split <;> rfl
@[simp] theorem setLow_c0 (s : St F) (q) : (s.setLow q).c0 = s.c0 := by unfold St.setLow; split <;> rfl
@[simp] theorem setLow_c1 (s : St F) (q) : (s.setLow q).c1 = s.c1 := by unfold St.setLow; split <;> rfl
@[simp] theorem setHigh_c0 (s : St F) (q) : (s.setHigh q).c0 = s.c0 := by unfold St.setHigh; split <;> rfl
@[simp] theorem setHigh_c1 (s : St F) (q) : (s.setHigh q).c1 = s.c1 := by unfold St.setHigh; split <;> rfl
@[simp] theorem setLow_th (s : St F) (q) : (s.setLow q).threshold = s.threshold := by unfold St.setLow; split <;> rfl
@[simp] theorem setHigh_th (s : St F) (q) : (s.setHigh q).threshold = s.threshold := by unfold St.setHigh; split <;> rfl
@[simp] theorem setLow_ths (s : St F) (q) : (s.setLow q).thStep = s.thStep := by unfold St.setLow; split <;> rfl
@[simp] theorem setHigh_ths (s : St F) (q) : (s.setHigh q).thStep = s.thStep := by unfold St.setHigh; split <;> rfl

/-- the queues, the counters and the threshold after the loop over the neighbours -/
structure Pushed (t : F) (s s' : St F) (a b : List Nat) : Prop where
  low : s'.low = s.low ++ a
  high : s'.high = s.high ++ b
  c0 : s'.c0 % 2^64 = (s.c0 + a.length) % 2^64
  c1 : s'.c1 % 2^64 = (s.c1 + a.length + b.length) % 2^64
  lt : s.c0 < 2^64 ∧ s.c1 < 2^64 → s'.c0 < 2^64 ∧ s'.c1 < 2^64
  lq : s'.lq = s.lq
  th : s'.threshold = s.threshold
  ths : s'.thStep = s.thStep
  which : (Arith.better t s.threshold = true → b = []) ∧ (Arith.better t s.threshold = false → a = [])

theorem Pushed.refl (t : F) (s : St F) : Pushed t s s [] [] :=
  ⟨by simp, by simp, by simp, by simp, fun h => h, rfl, rfl, rfl, fun _ => rfl, fun _ => rfl⟩

theorem openNbr_pushed (t : F) (s : St F) (n : Nat) :
    ∃ a b, Pushed t s (openNbr t s n) a b ∧
      a ++ b = if s.g.state n = .frozen ∧ Arith.better t (s.g.value n) = true then [n] else [] := by
  unfold openNbr
  by_cases h1 : s.g.state n = .frozen
  · cases h2 : Arith.better t (s.g.value n) with
    | true =>
      simp only [h1, if_true]
      cases h3 : Arith.better t s.threshold with
      | true =>
        simp only [if_true]
        refine ⟨[n], [], ⟨?_, ?_, ?_, ?_, ?_, ?_, ?_, ?_, ?_⟩, by simp⟩
        · exact (low_setLow _ _)
        · rw [List.append_nil]; exact (high_setLow _ _)
        · simp
        · simp
        · intro hlt; simp; omega
        · simp
        · simp
        · simp
        · simp [h3]
      | false =>
        simp only [Bool.false_eq_true, if_false]
        refine ⟨[], [n], ⟨?_, ?_, ?_, ?_, ?_, ?_, ?_, ?_, ?_⟩, by simp⟩
        · rw [List.append_nil]; exact (low_setHigh _ _)
        · exact (high_setHigh _ _)
        · simp
        · simp
        · intro hlt; simp; omega
        · simp
        · simp
        · simp
        · simp [h3]
    | false => simp only [h1, if_true, Bool.false_eq_true, if_false]; exact ⟨[], [], Pushed.refl _ _, by simp⟩
  · simp only [h1, if_false]; exact ⟨[], [], Pushed.refl _ _, by simp⟩

theorem Pushed.trans {t : F} {s s' s'' : St F} {a b a' b' : List Nat} (h : Pushed t s s' a b) (h' : Pushed t s' s'' a' b') :
    Pushed t s s'' (a ++ a') (b ++ b') := by
  refine ⟨by rw [h'.low, h.low, List.append_assoc], by rw [h'.high, h.high, List.append_assoc], ?_, ?_,
    fun hl => h'.lt (h.lt hl), h'.lq.trans h.lq,
    h'.th.trans h.th, h'.ths.trans h.ths, ?_, ?_⟩
  · rw [h'.c0, List.length_append, Nat.add_mod, h.c0, ← Nat.add_mod]; congr 1; omega
  · rw [h'.c1, List.length_append, List.length_append]
    have : ∀ x y z : Nat, x % 2^64 = y % 2^64 → (x + z) % 2^64 = (y + z) % 2^64 := fun x y z h => by omega
    have := this _ _ (a'.length + b'.length) h.c1
    rw [← Nat.add_assoc] at this
    rw [this]; congr 1; omega
  · intro hb; rw [h.which.1 hb, h'.which.1 (by rw [h.th]; exact hb)]; rfl
  · intro hb; rw [h.which.2 hb, h'.which.2 (by rw [h.th]; exact hb)]; rfl

/-- the cells that are queued are the neighbours that were locked and that the new time improves, each once, in order -/
theorem openAll_pushed (t : F) : ∀ (ns : List Nat) (s : St F), ns.Nodup →
    ∃ a b, Pushed t s (ns.foldl (openNbr t) s) a b ∧
      a ++ b = ns.filter (fun n => decide (s.g.state n = .frozen) && Arith.better t (s.g.value n)) := by
  intro ns
  induction ns with
  | nil => intro s _; exact ⟨[], [], Pushed.refl _ _, by simp⟩
  | cons n ns ih =>
    intro s hnd
    obtain ⟨hn, hnd⟩ := List.nodup_cons.1 hnd
    obtain ⟨a, b, hp, hab⟩ := openNbr_pushed t s n
    obtain ⟨a', b', hp', hab'⟩ := ih (openNbr t s n) hnd
    refine ⟨a ++ a', b ++ b', ?_, ?_⟩
    · rw [List.foldl_cons]; exact hp.trans hp'
    · obtain ⟨_, q2, _, _, q5, _⟩ := openNbr_spec t s n
      have hf : ns.filter (fun m => decide ((openNbr t s n).g.state m = .frozen) && Arith.better t ((openNbr t s n).g.value m)) =
          ns.filter (fun m => decide (s.g.state m = .frozen) && Arith.better t (s.g.value m)) := by
        apply List.filter_congr
        intro m hm
        have : m ≠ n := fun e => hn (e ▸ hm)
        rw [q2, q5]; simp [this]
      rw [hf] at hab'
      have key : (a ++ a') ++ (b ++ b') = (a ++ b) ++ (a' ++ b') := by
        cases hb : Arith.better t s.threshold with
        | true => rw [hp.which.1 hb, hp'.which.1 (by rw [hp.th]; exact hb)]; simp
        | false => rw [hp.which.2 hb, hp'.which.2 (by rw [hp.th]; exact hb)]; simp
      rw [key, hab, hab', List.filter_cons]
      by_cases h1 : s.g.state n = .frozen <;> simp [h1] <;> split <;> simp_all

/-- one iteration of the inner loop, with the counters -/
theorem pop_counts (goal : Nat) (eik : Eik F) (s : St F) (idx : Nat) (rest : List Nat) (hin : s.inner = true)
    (hst : s.stop = false) (hl : s.low = idx :: rest) (hnd : (s.g.shape.nbrs idx).Nodup) (hself : idx ∉ s.g.shape.nbrs idx) :
    ∃ u, Step goal eik s u ∧ u.inner = true ∧ u.lq = s.lq ∧ u.threshold = s.threshold ∧ u.thStep = s.thStep ∧
      let T := (eik s.g idx).1
      let new := if s.g.occ idx = true ∨ Arith.better T (s.g.value idx) = false then [] else
        (s.g.shape.nbrs idx).filter (fun n => decide (s.g.state n = .frozen) && Arith.better T (s.g.value n))
      (u.low = rest ++ if Arith.better T s.threshold = true then new else []) ∧
      (u.high = s.high ++ if Arith.better T s.threshold = true then [] else new) ∧
      (s.c0 < 2^64 ∧ s.c1 < 2^64 → u.c0 < 2^64 ∧ u.c1 < 2^64) ∧
      u.c0 % 2^64 = (s.c0 + (if Arith.better T s.threshold = true then new else []).length) % 2^64 ∧
      u.c1 % 2^64 = (s.c1 + new.length) % 2^64 := by
  refine ⟨next goal eik s, ⟨fun h => (by have := h.1; rw [hin] at this; cases this), rfl⟩, ?_⟩
  have hnext : next goal eik s = popBody goal eik s idx rest := by unfold next; simp [hin, hst, hl]
  rw [hnext]
  unfold popBody
  simp only [setLow_g]
  cases ho : s.g.occ idx with
  | true => simp [low_setLow, high_setLow, hin]
  | false =>
    simp only [Bool.false_eq_true, if_false, Grid.value_setScratch, false_or]
    rcases Bool.eq_false_or_eq_true (Arith.better (eik s.g idx).1 (s.g.value idx)) with hb | hb
    rotate_left
    · simp only [hb]
      simp only [Bool.false_eq_true, if_false, if_true]
      refine ⟨by simpa using hin, by simp, by simp, by simp, ?_, ?_, by simp, by simp, by simp⟩
      · simp only [ite_self, List.append_nil]; exact low_setLow s rest
      · simp only [ite_self, List.append_nil]; exact high_setLow s rest
    · simp only [hb, if_true, reduceCtorEq, if_false]
      set s2 : St F := { s.setLow rest with g := (s.g.setScratch (eik s.g idx).2).setValue idx (eik s.g idx).1 } with hs2
      have hsh : (s.g.setScratch (eik s.g idx).2).shape = s.g.shape := rfl
      rw [hsh]
      obtain ⟨a, b, hp, hab⟩ := openAll_pushed (eik s.g idx).1 (s.g.shape.nbrs idx) s2 hnd
      obtain ⟨_, _, _, o4, _, _⟩ := openAll_spec (eik s.g idx).1 (s.g.shape.nbrs idx) s2
      have hf : (s.g.shape.nbrs idx).filter (fun n => decide (s2.g.state n = .frozen) && Arith.better (eik s.g idx).1 (s2.g.value n)) =
          (s.g.shape.nbrs idx).filter (fun n => decide (s.g.state n = .frozen) && Arith.better (eik s.g idx).1 (s.g.value n)) := by
        apply List.filter_congr
        intro m hm
        have hne : m ≠ idx := fun e => hself (e ▸ hm)
        rw [hs2]; simp [Grid.value_setValue, hne]
      rw [hf] at hab
      have e1 : s2.low = rest := low_setLow s rest
      have e2 : s2.high = s.high := high_setLow s rest
      have e3 : s2.threshold = s.threshold := setLow_th s rest
      have e4 : s2.c0 = s.c0 := setLow_c0 s rest
      have e5 : s2.c1 = s.c1 := setLow_c1 s rest
      have hw := hp.which
      rw [e3] at hw
      refine ⟨?_, ?_, ?_, ?_, ?_, ?_, ?_, ?_, ?_⟩
      · show St.inner _ = _
        rw [o4]; simpa [hs2] using hin
      · exact hp.lq.trans (setLow_lq s rest)
      · exact hp.th.trans e3
      · exact hp.ths.trans (setLow_ths s rest)
      · refine hp.low.trans ?_
        rw [e1, ← hab]
        cases ht : Arith.better (eik s.g idx).1 s.threshold with
        | true => simp [hw.1 ht]
        | false => simp [hw.2 ht]
      · refine hp.high.trans ?_
        rw [e2, ← hab]
        cases ht : Arith.better (eik s.g idx).1 s.threshold with
        | true => simp [hw.1 ht]
        | false => simp [hw.2 ht]
      · have := hp.lt; rw [e4, e5] at this; exact this
      · refine hp.c0.trans ?_
        rw [e4, ← hab]
        cases ht : Arith.better (eik s.g idx).1 s.threshold with
        | true => simp [hw.1 ht]
        | false => simp [hw.2 ht]
      · refine hp.c1.trans ?_
        rw [e5, ← hab]
        simp [Nat.add_assoc]

/-- **C72** (which queue): treating the cell `idx` of the lower queue takes it from the queue, and then puts at the back of the queues exactly
the locked neighbours whose time the new time `T` of the cell would improve, if the cell itself was improved: all of them into the lower queue
if `T` is better than the threshold, all into the higher one otherwise. -/
theorem _root_.FMV.C72_queue_choice (dims : List Nat) (hf : Fits dims (2^31+1)) (goal : Nat) (eik : Eik F) (s : St F)
    (hsh : s.g.shape = Shape.mk' dims) (idx : Nat) (hi : idx < dims.prod) (rest : List Nat) (hin : s.inner = true)
    (hst : s.stop = false) (hl : s.low = idx :: rest) :
    ∃ u, Step goal eik s u ∧ u.inner = true ∧ u.lq = s.lq ∧ u.threshold = s.threshold ∧ u.thStep = s.thStep ∧
      let T := (eik s.g idx).1
      let new := if s.g.occ idx = true ∨ Arith.better T (s.g.value idx) = false then [] else
        (s.g.shape.nbrs idx).filter (fun n => decide (s.g.state n = .frozen) && Arith.better T (s.g.value n))
      (u.low = rest ++ if Arith.better T s.threshold = true then new else []) ∧
      (u.high = s.high ++ if Arith.better T s.threshold = true then [] else new) := by
  obtain ⟨u, h1, h2, h3, h4, h5, h6, h7, _⟩ := pop_counts goal eik s idx rest hin hst hl (by rw [hsh]; exact nbrs_nodup hf hi)
    (by rw [hsh]; exact nbrs_irrefl hf hi)
  exact ⟨u, h1, h2, h3, h4, h5, h6, h7⟩

/-- the counters are zero at the head of the outer loop -/
theorem counts_zero {goal : Nat} {eik : Eik F} {g : Grid F} {pts : List Nat} {th ths : F} {n : Nat} {s : St F}
    (hs : Steps (Step goal eik) n (init g pts th ths) s) : s.inner = false → s.c0 = 0 ∧ s.c1 = 0 := by
  refine Steps.inv (I := fun s : St F => s.inner = false → s.c0 = 0 ∧ s.c1 = 0) ?_ hs (fun _ => ⟨rfl, rfl⟩)
  intro a b I hst hb
  rcases step_cases hst with ⟨_, _, rfl⟩ | ⟨_, _, rfl⟩ | ⟨h1, _, idx, rest, hl, ⟨hocc, rfl⟩ | ⟨c, hp⟩⟩
  · cases hb
  · exact ⟨rfl, rfl⟩
  · rw [setLow_inner, h1] at hb; cases hb
  · rw [hp.inner, h1] at hb; cases hb

/-- during a turn the counters count -/
theorem pops_counts {dims : List Nat} (hf : Fits dims (2^31+1)) {goal : Nat} {eik : Eik F} {k : Nat} {e t : St F}
    (hs : Steps (Pops goal eik) k e t) (hQ : QInv dims e) (h0 : e.c0 = 0 ∧ e.c1 = 0) :
    QInv dims t ∧ t.lq = e.lq ∧ t.threshold = e.threshold ∧ t.thStep = e.thStep ∧ (t.c0 < 2^64 ∧ t.c1 < 2^64) ∧
    e.low.length ≤ k + t.low.length ∧ e.high.length ≤ t.high.length ∧
    t.c0 % 2^64 = queuedLow k e t % 2^64 ∧ t.c1 % 2^64 = (queuedLow k e t + queuedHigh e t) % 2^64 := by
  unfold queuedLow queuedHigh
  induction hs with
  | refl =>
    refine ⟨hQ, rfl, rfl, rfl, ⟨by rw [h0.1]; norm_num, by rw [h0.2]; norm_num⟩, by simp, le_rfl, ?_, ?_⟩
    · rw [h0.1]; simp
    · rw [h0.2]; simp
  | tail hs hst ih =>
    rename_i e a b
    obtain ⟨I1, I2, I3, I4, I5, I6, I7, I8, I9⟩ := ih hQ h0
    obtain ⟨hst, ha, hb⟩ := hst
    have hcase : a.stop = false ∧ ∃ idx rest, a.low = idx :: rest := by
      rcases step_cases hst with ⟨h, _, _⟩ | ⟨_, _, rfl⟩ | ⟨_, h2, idx, rest, hl, _⟩
      · rw [ha] at h; cases h
      · cases hb
      · exact ⟨h2, idx, rest, hl⟩
    obtain ⟨hstop, idx, rest, hl⟩ := hcase
    have hi : idx < dims.prod := I1.inq idx (low_queued hl)
    obtain ⟨u, h1, h2, h3, h4, h5, h6, h7, h8, h9, h10⟩ := pop_counts goal eik a idx rest ha hstop hl
      (by rw [I1.shape]; exact nbrs_nodup hf hi) (by rw [I1.shape]; exact nbrs_irrefl hf hi)
    have hub : u = b := h1.2.trans hst.2.symm
    subst hub
    revert h6 h7 h8 h9 h10
    generalize (if a.g.occ idx = true ∨ Arith.better (eik a.g idx).1 (a.g.value idx) = false then [] else
        (a.g.shape.nbrs idx).filter (fun n => decide (a.g.state n = .frozen) && Arith.better (eik a.g idx).1 (a.g.value n))) = new
    intro h6 h7 h8 h9 h10
    rw [hl] at I6 I8 I9
    simp only [List.length_cons] at I6 I8 I9
    refine ⟨I1.step hf hst, h3.trans I2, h4.trans I3, h5.trans I4, h8 I5, ?_, ?_, ?_, ?_⟩
    · rw [h6]; simp only [List.length_append]; omega
    · rw [h7]; simp only [List.length_append]; omega
    · rw [h9, h6]
      simp only [List.length_append]
      omega
    · rw [h10, h6, h7]
      simp only [List.length_append]
      split <;> simp only [List.length_nil] <;> omega

/-- a turn, in any arithmetic -/
theorem turn_of {dims : List Nat} {g : Grid F} {pts : List Nat} (hin : Input dims g pts) {goal : Nat} {eik : Eik F} {th ths : F}
    {n k : Nat} {s t u : St F} (hs : Steps (Step goal eik) n (init g pts th ths) s) (hT : Turn goal eik k s t u)
    (hcnt : queuedLow k s t + queuedHigh s t < 2^64) :
    (t.stop = true ∨ t.low = []) ∧ u = turn t ∧ t.c0 = queuedLow k s t ∧ t.c1 = queuedLow k s t + queuedHigh s t ∧
    t.lq = s.lq ∧ t.threshold = s.threshold ∧ t.thStep = s.thStep := by
  obtain ⟨e, hse, hp⟩ := hT.pops
  have hQ : QInv dims s := Steps.inv (I := QInv dims) (fun a b I h => I.step hin.fits h) hs (QInv.start hin th ths)
  have h0 := counts_zero hs hT.start
  have he : e = { s with inner := true } := by
    rw [hse.2]; unfold next; simp [hT.start]
  have hQe := hQ.step hin.fits hse
  obtain ⟨_, p2, p3, p4, p5, p6, p7, p8, p9⟩ := pops_counts hin.fits hp hQe (by rw [he]; exact h0)
  have e1 : queuedLow k e t = queuedLow k s t := by rw [he]; rfl
  have e2 : queuedHigh e t = queuedHigh s t := by rw [he]; rfl
  rw [e1] at p8
  rw [e1, e2] at p9
  have hti : t.inner = true ∧ (t.stop = true ∨ t.low = []) ∧ u = turn t := by
    rcases step_cases hT.last with ⟨_, _, rfl⟩ | ⟨h1, h2, h3⟩ | ⟨h1, _, idx, rest, hl, ⟨hocc, rfl⟩ | ⟨c, hp⟩⟩
    · cases hT.fin
    · exact ⟨h1, h2, h3⟩
    · have := hT.fin; rw [setLow_inner, h1] at this; cases this
    · have := hT.fin; rw [hp.inner, h1] at this; cases this
  rw [Nat.mod_eq_of_lt p5.1, Nat.mod_eq_of_lt (by omega)] at p8
  rw [Nat.mod_eq_of_lt p5.2, Nat.mod_eq_of_lt hcnt] at p9
  refine ⟨hti.2.1, hti.2.2, p8, p9, ?_, ?_, ?_⟩
  · rw [p2, he]
  · rw [p3, he]
  · rw [p4, he]

/-- every state at the head of the outer loop that has not finished begins a turn, if the algorithm ends -/
theorem exists_turn {goal : Nat} {eik : Eik F} {s d : St F} {n : Nat} (hs : Steps (Step goal eik) n s d) (hnd : ¬ Done s)
    (hin : s.inner = false) (hd : Done d) : ∃ k t u, Turn goal eik k s t u := by
  have key : d = s ∨ (d.inner = true ∧ ∃ e k, Step goal eik s e ∧ Steps (Pops goal eik) k e d) ∨ ∃ k t u, Turn goal eik k s t u := by
    clear hd
    induction hs with
    | refl => exact Or.inl rfl
    | tail h1 h2 ih =>
      rename_i s a b
      rcases ih hnd hin with rfl | ⟨hai, e, k, hse, hp⟩ | h
      · right; left
        have : b = { a with inner := true } := by rw [h2.2]; unfold next; simp [hin]
        exact ⟨by rw [this], b, 0, h2, .refl _⟩
      · right
        cases hb : b.inner with
        | true => exact Or.inl ⟨rfl, e, k+1, hse, .tail hp ⟨h2, hai, hb⟩⟩
        | false => exact Or.inr ⟨k, a, b, hin, ⟨e, hse, hp⟩, h2, hb⟩
      · exact Or.inr (Or.inr h)
  rcases key with rfl | ⟨h, _⟩ | h
  · exact absurd hd hnd
  · rw [hd.1] at h; cases h
  · exact h

section exact
variable {dims : List Nat} {g : Grid XR} {h : ℝ} {v : Nat → ℝ} {pts : List Nat}

/-- **C72** (the rule): in each turn the threshold stays as it is while cells are treated, the turn ends when the lower queue is empty or the goal
has been reached, and then the step is changed as the paper says, the threshold is raised by the new step and the queues change roles. -/
theorem _root_.FMV.C72_threshold_rule {dims : List Nat} {g : Grid XR} {pts : List Nat} (hin : Input dims g pts) (goal : Nat) (eik : Eik XR)
    (th ths : XR) (n k : Nat) (s t u : St XR) (hs : Steps (Step goal eik) n (init g pts th ths) s) (hT : Turn goal eik k s t u)
    (hcnt : queuedLow k s t + queuedHigh s t < 2^64) (w a : ℝ) (hw : s.thStep = .fin w) (ha : s.threshold = .fin a) :
    (t.stop = true ∨ t.low = []) ∧ t.threshold = s.threshold ∧
    u.thStep = .fin (stepAfter (queuedLow k s t) (queuedLow k s t + queuedHigh s t) w) ∧
    u.threshold = .fin (a + stepAfter (queuedLow k s t) (queuedLow k s t + queuedHigh s t) w) ∧
    u.low = t.high ∧ u.high = t.low ∧ u.g = t.g := by
  obtain ⟨h1, rfl, h3, h4, h5, h6, h7⟩ := turn_of hin hs hT hcnt
  rw [← h3]
  rw [← h3] at h4
  have hlow : (turn t).low = t.high := by unfold turn St.low St.high; cases t.lq <;> simp
  have hhigh : (turn t).high = t.low := by unfold turn St.low St.high; cases t.lq <;> simp
  have hstep : (turn t).thStep = .fin (stepAfter t.c0 (t.c0 + queuedHigh s t) w) := by
    rw [← h4]
    unfold turn stepAfter
    dsimp only
    rw [h7, hw]
    have hmul : Arith.mul (.fin w : XR) (Arith.ofRat 3 2) = .fin (w * (3/2)) := by
      show XR.mul _ _ = _
      simp only [Arith.ofRat, XR.mul]; norm_num
    have hdiv : Arith.div (.fin w : XR) (Arith.ofRat 2 1) = .fin (w / 2) := by
      show XR.div _ _ = _
      simp only [Arith.ofRat, XR.div]; norm_num
    rw [hmul, hdiv]
    have hp : (if t.c1 ≠ 0 then Arith.div (Arith.ofNat t.c0) (Arith.ofNat t.c1) else Arith.one : XR) =
        .fin (if t.c1 = 0 then 1 else (t.c0:ℝ) / t.c1) := by
      by_cases hz : t.c1 = 0
      · simp only [hz, ne_eq, not_true, if_false, if_true]; rfl
      · have hz' : (t.c1:ℝ) ≠ 0 := by exact_mod_cast hz
        rw [if_pos hz, if_neg hz]
        show XR.div (Arith.ofNat t.c0) (Arith.ofNat t.c1) = _
        simp [Arith.ofNat, Arith.ofRat, XR.div, hz']
    rw [hp]
    have hle1 : Arith.le (.fin (if t.c1 = 0 then 1 else (t.c0:ℝ) / t.c1) : XR) (Arith.ofRat 65 100) =
        decide ((if t.c1 = 0 then 1 else (t.c0:ℝ) / t.c1) ≤ 65/100) := by
      show XR.le _ _ = _
      simp [Arith.ofRat, XR.le]
    have hle2 : Arith.le (Arith.ofRat 75 100 : XR) (.fin (if t.c1 = 0 then 1 else (t.c0:ℝ) / t.c1)) =
        decide (75/100 ≤ (if t.c1 = 0 then 1 else (t.c0:ℝ) / t.c1)) := by
      show XR.le _ _ = _
      simp [Arith.ofRat, XR.le]
    rw [hle1, hle2]
    by_cases hz : t.c1 = 0
    · simp only [hz, if_true]
      rw [if_neg (by norm_num), if_pos (by norm_num)]
    · simp only [hz, if_false, decide_eq_true_eq]
      split
      · rfl
      · split <;> rfl
  refine ⟨h1, h6, hstep, ?_, hlow, hhigh, rfl⟩
  show Arith.add t.threshold (turn t).thStep = _
  rw [hstep, h6, ha]
  rfl

theorem foldOpen_threshold (t : F) : ∀ (ns : List Nat) (s : St F),
    (ns.foldl (openNbr t) s).threshold = s.threshold ∧ (ns.foldl (openNbr t) s).thStep = s.thStep := by
  intro ns
  induction ns with
  | nil => intro s; exact ⟨rfl, rfl⟩
  | cons n ns ih =>
    intro s
    obtain ⟨a, b, hp, _⟩ := openNbr_pushed t s n
    rw [List.foldl_cons, (ih _).1, (ih _).2]
    exact ⟨hp.th, hp.ths⟩

theorem popBody_threshold (goal : Nat) (eik : Eik F) (s : St F) (idx : Nat) (rest : List Nat) (hin : s.inner = true) :
    (popBody goal eik s idx rest).threshold = s.threshold ∧ (popBody goal eik s idx rest).thStep = s.thStep ∧
    (popBody goal eik s idx rest).inner = true := by
  unfold popBody
  dsimp only
  split
  · simp [hin]
  · split
    · rw [(foldOpen_threshold _ _ _).1, (foldOpen_threshold _ _ _).2, (openAll_spec _ _ _).2.2.2.1]
      simp [hin]
    · simp [hin]

theorem stepAfter_pos (a b : Nat) {w : ℝ} (hw : 0 < w) : 0 < stepAfter a b w := by
  unfold stepAfter
  split
  · positivity
  · split
    · positivity
    · split
      · positivity
      · exact hw

/-- **C72** (growth): with a positive initial step the step stays positive and finite, so that the threshold rises at every turn and never falls. -/
theorem _root_.FMV.C72_threshold_grows (goal : Nat) (eik : Eik XR) (g : Grid XR) (pts : List Nat) (a w : ℝ) (hw : 0 < w)
    (n : Nat) (s : St XR) (hs : Steps (Step goal eik) n (init g pts (.fin a) (.fin w)) s) :
    ∃ a' w', s.threshold = .fin a' ∧ s.thStep = .fin w' ∧ 0 < w' ∧ a ≤ a' ∧
      ∀ u, Step goal eik s u → ∃ b, u.threshold = .fin b ∧ a' ≤ b ∧ (s.inner = true → u.inner = false → a' < b) := by
  have hstep : ∀ s u : St XR, Step goal eik s u → ∀ a' w' : ℝ, s.threshold = .fin a' → s.thStep = .fin w' → 0 < w' →
      ∃ b w'', u.threshold = .fin b ∧ u.thStep = .fin w'' ∧ 0 < w'' ∧ a' ≤ b ∧ (s.inner = true → u.inner = false → a' < b) := by
    intro s u hu a' w' ha hw' hpos
    rcases step_cases hu with ⟨h0, _, rfl⟩ | ⟨_, _, rfl⟩ | ⟨h1, h2, idx, rest, hl, hc⟩
    · exact ⟨a', w', ha, hw', hpos, le_rfl, fun h => by rw [h0] at h; cases h⟩
    · have hths : ∃ w'', 0 < w'' ∧ (turn s).thStep = .fin w'' := by
        have hmul : Arith.mul (.fin w' : XR) (Arith.ofRat 3 2) = .fin (w' * (3/2)) := by
          show XR.mul _ _ = _
          simp only [Arith.ofRat, XR.mul]; norm_num
        have hdiv : Arith.div (.fin w' : XR) (Arith.ofRat 2 1) = .fin (w' / 2) := by
          show XR.div _ _ = _
          simp only [Arith.ofRat, XR.div]; norm_num
        unfold turn
        dsimp only
        rw [hw', hmul, hdiv]
        generalize (if s.c1 ≠ 0 then Arith.div (Arith.ofNat s.c0) (Arith.ofNat s.c1) else Arith.one : XR) = pct
        split
        · exact ⟨_, by positivity, rfl⟩
        · split
          · exact ⟨_, by positivity, rfl⟩
          · exact ⟨_, hpos, rfl⟩
      obtain ⟨w'', hp, he⟩ := hths
      have hth : (turn s).threshold = .fin (a' + w'') := by
        show Arith.add s.threshold (turn s).thStep = _
        rw [he, ha]; rfl
      exact ⟨a' + w'', w'', hth, he, hp, by linarith, fun _ _ => by linarith⟩
    · have hthr : u.threshold = s.threshold ∧ u.thStep = s.thStep ∧ u.inner = true := by
        have : u = popBody goal eik s idx rest := by rw [hu.2]; unfold next; simp [h1, h2, hl]
        rw [this]
        exact popBody_threshold goal eik s idx rest h1
      exact ⟨a', w', hthr.1.trans ha, hthr.2.1.trans hw', hpos, le_rfl, fun _ h => by rw [hthr.2.2] at h; cases h⟩
  have : ∃ a' w', s.threshold = .fin a' ∧ s.thStep = .fin w' ∧ 0 < w' ∧ a ≤ a' := by
    refine Steps.inv (I := fun s : St XR => ∃ a' w', s.threshold = .fin a' ∧ s.thStep = .fin w' ∧ 0 < w' ∧ a ≤ a') ?_ hs
      ⟨a, w, rfl, rfl, hw, le_rfl⟩
    rintro x y ⟨a', w', h1, h2, h3, h4⟩ hst
    obtain ⟨b, w'', k1, k2, k3, k4, _⟩ := hstep x y hst a' w' h1 h2 h3
    exact ⟨b, w'', k1, k2, k3, h4.trans k4⟩
  obtain ⟨a', w', h1, h2, h3, h4⟩ := this
  refine ⟨a', w', h1, h2, h3, h4, ?_⟩
  intro u hu
  obtain ⟨b, w'', k1, k2, k3, k4, k5⟩ := hstep s u hu a' w' h1 h2 h3
  exact ⟨b, k1, k4, k5⟩

end exact

/-- **C72** (the start): `setEnvironment` sets the threshold and the step to one and a half times the time in which a cell is crossed at the mean
speed of the free cells; it is finite and positive. -/
theorem _root_.FMV.C72_initial_threshold {dims : List Nat} {g : Grid XR} {h : ℝ} {v : Nat → ℝ} {pts : List Nat} (X : XInput dims g h v pts)
    (hfree : ∃ i, i < dims.prod ∧ g.occ i = false) (o : Obj XR) :
    let free := (Finset.range dims.prod).filter (fun i => g.occ i = false)
    let w := 3 / 2 * h / ((∑ i ∈ free, v i) / (free.card : ℝ))
    0 < w ∧ (o.kind = .ddqm → (o.setEnvironment g).thStep = .fin w ∧ (o.setEnvironment g).threshold = .fin w) := by
  intro free w
  have hsz : g.size = dims.prod := by unfold Grid.size; rw [X.shape]; exact mk'_ncells (X.fits.mono (by norm_num))
  have hav := C06_getAvgSpeed g (by rw [hsz]; have := X.fits.lt; omega) v (fun i hi ho => X.speed i (by rwa [← hsz]) ho)
    (by rw [hsz]; exact hfree)
  rw [hsz] at hav
  have hcard : (0:ℝ) < free.card := by
    obtain ⟨i, hi, ho⟩ := hfree
    exact_mod_cast Finset.card_pos.2 ⟨i, by simp [free, hi, ho]⟩
  have hsum : 0 < ∑ i ∈ free, v i := by
    apply Finset.sum_pos
    · intro i hi
      have := Finset.mem_filter.1 hi
      exact X.vpos (Finset.mem_range.1 this.1) this.2
    · obtain ⟨i, hi, ho⟩ := hfree
      exact ⟨i, by simp [free, hi, ho]⟩
  have hm : 0 < (∑ i ∈ free, v i) / (free.card : ℝ) := div_pos hsum hcard
  have hw : thStepEnv g = .fin w := by
    unfold thStepEnv
    rw [hav, X.leaf]
    show XR.div (XR.mul (Arith.ofRat 3 2) (.fin h)) _ = _
    simp only [Arith.ofRat, XR.mul, XR.div]
    rw [if_neg hm.ne']
    norm_num [w, free]
  refine ⟨div_pos (by have := X.hpos; positivity) hm, ?_⟩
  intro hk
  unfold Obj.setEnvironment
  rw [hk]
  exact ⟨hw, hw⟩

/-- non-vacuity: the first turn on a 3x3 grid with the step that `setEnvironment` computes -/
example : ∃ (g : Grid XR) (k : Nat) (w : ℝ) (t u : St XR), Input [3,3] g [0] ∧ 0 < w ∧
    Turn noGoal eikS k (init g [0] (.fin w) (.fin w)) t u := by
  have X : XInput [3,3] (Grid.create [3,3] (fin 1) (0,0)) 1 (fun _ => 1) [0] :=
    ⟨⟨by decide, by decide, by decide⟩, by decide, rfl, by decide, one_pos, rfl, fun _ _ _ => rfl⟩
  have hfr : Fresh (Grid.create (F := XR) [3,3] (fin 1) (0,0)) := ⟨fun _ => rfl, fun _ => rfl, fun _ => rfl⟩
  have ho : ∀ i, (Grid.create [3,3] (XR.fin 1) (0,0)).occ i = false := by
    intro i
    show decide ((1:ℝ) < XR.eps) = false
    exact decide_eq_false (by unfold XR.eps; norm_num)
  obtain ⟨hw, _⟩ := C72_initial_threshold X ⟨0, by decide, ho 0⟩ (Obj.new .ddqm ⟨0, fun _ => fin 0, [], [], fin 0, fin 0⟩)
  revert hw
  generalize 3 / 2 * (1:ℝ) / _ = w
  intro hw
  obtain ⟨n, d, hs, hd⟩ := (C27_DDQM_exact X hfr noGoal (.fin w) (.fin w)).1
  obtain ⟨k, t, u, hT⟩ := exists_turn hs (by
    rintro ⟨_, h | ⟨h, _⟩⟩
    · cases h
    · have hq : Queued (init (Grid.create [3,3] (fin 1) (0,0)) [0] (fin w) (fin w)) 1 :=
        (init_queued _ _ _ _ _).2 ⟨⟨0, by simp, by decide⟩, ho 1⟩
      rcases hq with hq | hq
      · rw [h] at hq; cases hq
      · cases hq) rfl hd
  exact ⟨_, k, _, t, u, ⟨X.fits, X.shape, X.inside⟩, hw, hT⟩

/-- the bound in the model of rounding to nearest is the one of IEEE 754: `2^1024 - 2^970` -/
theorem _root_.FMV.overflow_eq : overflow = 2^1024 - 2^970 := by
  unfold overflow
  rw [show (2:ℝ)^(970:ℤ) = 2^970 from by exact_mod_cast rfl, show (2:ℝ)^1024 = 2^54 * 2^970 from by rw [← pow_add]]
  ring

/-- and it overflows exactly from that bound on, on both sides -/
theorem _root_.FMV.rdNearest_overflow (r : ℝ) : (rdNearest r = .pinf ↔ 2^1024 - 2^970 ≤ r) ∧ (rdNearest r = .ninf ↔ r ≤ -(2^1024 - 2^970)) := by
  rw [← overflow_eq]
  have h0 : (0:ℝ) < overflow := by have := IsDouble.zero.lt_overflow; rwa [abs_zero] at this
  unfold rdNearest
  constructor
  · split
    · next h => exact ⟨fun _ => h, fun _ => rfl⟩
    · next h =>
      split
      · exact ⟨fun e => (by cases e), fun e => absurd e h⟩
      · exact ⟨fun e => (by cases e), fun e => absurd e h⟩
  · split
    · next h => exact ⟨fun e => (by cases e), fun e => (by linarith)⟩
    · split
      · next h => exact ⟨fun _ => h, fun _ => rfl⟩
      · next h => exact ⟨fun e => (by cases e), fun e => absurd e h⟩

end DDQM
end FMV
