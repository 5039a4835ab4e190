import Verif.Props.GMM
import Verif.Props.UFMM
import Verif.Props.GMMTerm
/-!
# C74: stopping at the goal, solvers other than FMM: the positive part
-/
namespace FMV
open Arith
open FMM Grid
variable {F : Type} [Arith F]

/-- two runs of a deterministic program: one that has ended continues the other -/
theorem Steps.uncons {α : Type} {r : α → α → Prop} {k : Nat} {a c : α} (h : Steps r (k + 1) a c) : ∃ d, r a d ∧ Steps r k d c := by
  generalize hm : k + 1 = m at h
  induction h generalizing k with
  | refl => omega
  | @tail n a b c h0 hs ih =>
    cases n with
    | zero =>
      cases h0
      obtain rfl : k = 0 := by omega
      exact ⟨_, hs, .refl _⟩
    | succ n =>
      obtain ⟨d, hd, h1⟩ := ih rfl
      obtain rfl : k = n + 1 := by omega
      exact ⟨d, hd, .tail h1 hs⟩

theorem Steps.prefix_of_det {α : Type} {r : α → α → Prop} (det : ∀ a b c, r a b → r a c → b = c) {n : Nat} {a b : α} (h1 : Steps r n a b) :
    ∀ {m : Nat} {c : α}, Steps r m a c → (∀ d, ¬ r c d) → ∃ k, m = n + k ∧ Steps r k b c := by
  induction h1 with
  | refl => intro m c h _; exact ⟨m, by omega, h⟩
  | @tail n a b b' h0 hs ih =>
    intro m c h hc
    obtain ⟨k, hk, h2⟩ := ih h hc
    cases k with
    | zero => cases h2; exact absurd hs (hc _)
    | succ k =>
      obtain ⟨d, hd, h3⟩ := FMV.Steps.uncons h2
      rw [det _ _ _ hs hd]
      exact ⟨k, by omega, h3⟩

namespace GMM

/-- the state without the stop flag -/
def erase (s : St F) : St F := { s with stop := false }

theorem relax2_erase (eik : Eik F) (s : St F) (j : Nat) : relax2 eik (erase s) j = erase (relax2 eik s j) := by
  unfold relax2 erase
  dsimp only
  split
  · rfl
  · split <;> rfl

theorem relax2s_erase (eik : Eik F) : ∀ (l : List Nat) (s : St F), l.foldl (relax2 eik) (erase s) = erase (l.foldl (relax2 eik) s)
  | [], _ => rfl
  | j :: l, s => by rw [List.foldl_cons, List.foldl_cons, relax2_erase, relax2s_erase eik l]

theorem next_erase (dt : F) (goal goal' : Nat) (eik : Eik F) (s : St F) (h : ∀ x rest, s.rest = x :: rest → x ≠ goal') (h0 : ∀ l : List Nat, (l.foldl (relax2 eik) s).stop = s.stop) :
    next dt goal' eik (erase s) = erase (next dt goal eik s) := by
  unfold next
  show (match s.rest with | x :: rest => visit goal' eik (erase s) x rest | [] => begin dt eik (erase s)) = _
  cases hr : s.rest with
  | nil => rfl
  | cons x rest =>
    dsimp only
    unfold visit
    show (if le (s.g.value x) s.tm = true then _ else _) = _
    split
    · dsimp only
      have : (erase s).g.shape.nbrs x = s.g.shape.nbrs x := rfl
      rw [this, relax2s_erase, if_neg (h x rest hr)]
      rfl
    · rfl

theorem relax2s_stop (eik : Eik F) (l : List Nat) : ∀ s : St F, (l.foldl (relax2 eik) s).stop = s.stop := by
  induction l with
  | nil => intro s; rfl
  | cons j l ih =>
    intro s
    rw [List.foldl_cons, ih]
    unfold relax2
    split
    · rfl
    · dsimp only; split <;> rfl

/-- a run with a goal is the beginning of the run without -/
theorem goal_prefix {dt : F} {goal goal' : Nat} {eik : Eik F} {dims : List Nat} {g : Grid F} {pts : List Nat} (hin : Input dims g pts)
    (hopen : ∀ i, g.state i = .opn) (hgoal : dims.prod ≤ goal') {n : Nat} {s : St F} (hs : Steps (Step dt goal eik) n (init eik g [] pts) s) :
    Steps (Step dt goal' eik) n (init eik g [] pts) (erase s) ∧ (s.stop = true → s.g.state goal = .frozen) := by
  have key : GInv dims eik g pts s ∧ Steps (Step dt goal' eik) n (init eik g [] pts) (erase s) ∧ (s.stop = true → s.g.state goal = .frozen) := by
    have hst : (init eik g [] pts).stop = false := rfl
    have hI := GInv.start eik hin hopen
    generalize init eik g [] pts = s0 at hs hst hI
    induction hs with
    | refl => exact ⟨hI, by rw [show erase _ = _ from by unfold erase; rw [← hst]]; exact .refl _, fun h => by rw [hst] at h; cases h⟩
    | @tail n a b c h0 hstep ih =>
      obtain ⟨I, i1, i2⟩ := ih hst hI
      obtain ⟨J, -, hfz⟩ := I.step hin hstep
      refine ⟨J, .tail i1 ?_, ?_⟩
      · obtain ⟨hd, rfl⟩ := hstep
        refine ⟨fun hd' => hd ?_, ?_⟩
        · refine ⟨hd'.1, ?_⟩
          rcases hd'.2 with h | h
          · cases h
          · exact Or.inr h
        · rw [next_erase dt goal goal' eik b ?_ (fun l => relax2s_stop eik l b)]
          intro x rest hr
          have hx : x ∈ b.gamma := by rw [mem_gamma, hr]; simp
          have := reach_lt (I.sound x hx).1
          omega
      · intro hc
        by_cases hb : b.stop = true
        · exact (hfz _ (i2 hb)).1
        · obtain ⟨hd, rfl⟩ := hstep
          unfold next at hc ⊢
          split at hc
          · next x rest hr =>
            unfold visit at hc ⊢
            split at hc
            · next hle =>
              rw [if_pos hle]
              dsimp only at hc ⊢
              by_cases hx : x = goal
              · subst hx; rw [state_setState, if_pos rfl]
              · rw [if_neg hx, relax2s_stop] at hc; exact absurd hc hb
            · exact absurd hc hb
          · exact absurd hc hb
  exact key.2

/-- **C74** for GMM, any arithmetic and local solver: a run with a goal that has ended and a run without that has ended give the goal, and every cell frozen by the former, the
same time; and if the goal has not been frozen, the two runs are the same. -/
theorem _root_.FMV.C74_GMM (dt : F) (goal goal' : Nat) (eik : Eik F) (dims : List Nat) (g : Grid F) (pts : List Nat) (hin : Input dims g pts)
    (hopen : ∀ i, g.state i = .opn) (hgoal : dims.prod ≤ goal') (n m : Nat) (s t : St F)
    (hs : Steps (Step dt goal eik) n (init eik g [] pts) s) (hsd : Done s) (ht : Steps (Step dt goal' eik) m (init eik g [] pts) t) (htd : Done t) :
    n ≤ m ∧ t.g.value goal = s.g.value goal ∧ (∀ i, s.g.state i = .frozen → t.g.value i = s.g.value i) ∧ (s.g.state goal ≠ .frozen → t.g = s.g) := by
  obtain ⟨h1, h2⟩ := goal_prefix hin hopen hgoal hs
  obtain ⟨k, hk, h3⟩ := FMV.Steps.prefix_of_det (r := Step dt goal' eik) (fun _ _ _ h h' => h.2.trans h'.2.symm) h1 ht (fun d hd => hd.1 htd)
  have hfin : ∀ i, s.g.state i = .frozen → t.g.value i = s.g.value i := fun i hi =>
    (C12_GMM dt goal' eik dims g pts hin hopen n k _ _ h1 h3 i hi).2
  have hno : s.g.state goal ≠ .frozen → t.g = s.g := by
    intro hng
    have hst : s.stop = false := by
      cases h : s.stop with
      | false => rfl
      | true => exact absurd (h2 h) hng
    have hd : Done (erase s) := ⟨hsd.1, Or.inr (by
      rcases hsd.2 with h | h
      · rw [hst] at h; cases h
      · exact h)⟩
    cases h3 with
    | refl => rfl
    | tail h4 h5 =>
      obtain ⟨d, hd', -⟩ := FMV.Steps.uncons (Steps.tail h4 h5)
      exact absurd hd hd'.1
  refine ⟨by omega, ?_, hfin, hno⟩
  by_cases h : s.g.state goal = .frozen
  · exact hfin _ h
  · rw [hno h]

/-- non-vacuity: the 2x2 grid `ex10`, start 0, goal 3, time step 1: both runs end -/
example : Input [2,2] ex10 [0] ∧ (∀ i, ex10.state i = .opn) ∧ (∃ n s, Steps (Step (XR.fin 1) 3 eikS) n (init eikS ex10 [] [0]) s ∧ Done s) ∧
    ∃ m t, Steps (Step (XR.fin 1) noGoal eikS) m (init eikS ex10 [] [0]) t ∧ Done t :=
  ⟨ex10_input.input, ex10_fresh.state, C49_GMM_terminates ex10_input ex10_fresh 3 1 one_pos, C49_GMM_terminates ex10_input ex10_fresh noGoal 1 one_pos⟩

end GMM

namespace UFMM

/-- the state without the stop flag -/
def erase (s : St F) : St F := { s with stop := false }

theorem relax_erase (eik : Eik F) (s : St F) (j : Nat) : relax eik (erase s) j = erase (relax eik s j) := by
  have e : (erase s).g = s.g := rfl
  unfold relax
  rw [e]
  dsimp only
  by_cases h1 : s.g.state j = .frozen ∨ s.g.occ j = true
  · rw [if_pos h1, if_pos h1]
  · rw [if_neg h1, if_neg h1]
    by_cases h2 : s.g.state j = .narrow
    · rw [if_pos h2, if_pos h2]
      by_cases h3 : better (eik s.g j).1 (s.g.value j) = true
      · rw [if_pos h3, if_pos h3]; rfl
      · rw [if_neg h3, if_neg h3]; rfl
    · rw [if_neg h2, if_neg h2]; rfl

theorem relaxs_erase (eik : Eik F) : ∀ (l : List Nat) (s : St F), l.foldl (relax eik) (erase s) = erase (l.foldl (relax eik) s)
  | [], _ => rfl
  | j :: l, s => by rw [List.foldl_cons, List.foldl_cons, relax_erase, relaxs_erase eik l]

theorem relaxs_stop (eik : Eik F) (l : List Nat) : ∀ s : St F, (l.foldl (relax eik) s).stop = s.stop := by
  induction l with
  | nil => intro s; rfl
  | cons j l ih =>
    intro s
    rw [List.foldl_cons, ih]
    unfold relax
    split
    · rfl
    · dsimp only
      split
      · split <;> rfl
      · rfl

theorem step_det {goal : Nat} {eik : Eik F} {a b c : St F} (h1 : Step goal eik a b) (h2 : Step goal eik a c) : b = c := by
  obtain ⟨_, x, hx, rfl⟩ := h1
  obtain ⟨_, y, hy, rfl⟩ := h2
  rw [hx] at hy
  cases hy
  rfl

/-- the cell expanded is frozen afterwards -/
theorem expand_frozen (goal : Nat) (eik : Eik F) (s : St F) (x : Nat) : (expand goal eik s x).g.state x = .frozen := by
  unfold expand
  dsimp only
  have : ∀ (l : List Nat) (t : St F), t.g.state x = .frozen → (l.foldl (relax eik) t).g.state x = .frozen := by
    intro l
    induction l with
    | nil => intro t h; exact h
    | cons j l ih =>
      intro t h
      rw [List.foldl_cons]
      apply ih
      have := relax_protected (eik := eik) (j := j) (Or.inl h : t.g.state x = .frozen ∨ t.g.occ x = true)
      unfold Grid.state at h ⊢
      rw [this]; exact h
  exact this _ _ (by rw [state_setState, if_pos rfl])

theorem expand_erase (goal goal' : Nat) (eik : Eik F) (s : St F) (x : Nat) (h : x ≠ goal') :
    expand goal' eik (erase s) x = erase (expand goal eik s x) := by
  have e := relaxs_erase eik (s.g.shape.nbrs x) { s with g := s.g.setState x .frozen }
  have e' : (s.g.shape.nbrs x).foldl (relax eik) { erase s with g := (erase s).g.setState x .frozen } =
      erase ((s.g.shape.nbrs x).foldl (relax eik) { s with g := s.g.setState x .frozen }) := e
  unfold expand
  rw [show (erase s).g.shape.nbrs x = s.g.shape.nbrs x from rfl, e']
  dsimp only
  rw [if_neg h]
  rfl

/-- a run with a goal is the beginning of the run without -/
theorem goal_prefix {goal goal' : Nat} {dims : List Nat} {g : Grid F} {pts : List Nat} (hin : Input dims g pts)
    (hopen : ∀ i, g.state i = .opn) {size : Nat} (hz : 0 < size) {inc : F} {ub : F → Nat} (hgoal : dims.prod ≤ goal') {n : Nat} {s : St F}
    (hs : Steps (Step goal eikS) n (init g (UQ.create size inc ub) pts) s) :
    Steps (Step goal' eikS) n (init g (UQ.create size inc ub) pts) (erase s) ∧ (s.stop = true → s.g.state goal = .frozen) := by
  have hst : (init g (UQ.create size inc ub) pts).stop = false := by
    unfold init
    refine foldl_inv (I := fun s : St F => s.stop = false) _ _ _ rfl ?_
    intro t j _ h; exact h
  have hall := fun k t h => C50_UFMM_only_reachable hin hopen hz inc ub goal k t h
  generalize init g (UQ.create size inc ub) pts = s0 at hs hst hall
  induction hs with
  | refl => exact ⟨by rw [show erase _ = _ from by unfold erase; rw [← hst]]; exact .refl _, fun h => by rw [hst] at h; cases h⟩
  | @tail n a b c h0 hstep ih =>
    obtain ⟨i1, i2⟩ := ih hst hall
    have hr := hall (n + 1) c (.tail h0 hstep)
    obtain ⟨hd, x, hx, rfl⟩ := hstep
    have hfx := expand_frozen goal eikS { b with q := b.q.top.1 } x
    have hxlt := reach_lt (hr x hfx)
    refine ⟨.tail i1 ⟨?_, x, hx, ?_⟩, ?_⟩
    · rintro (h | h)
      · cases h
      · exact hd (Or.inr h)
    · exact (expand_erase goal goal' eikS { b with q := b.q.top.1 } x (by omega)).symm
    · intro hc
      by_cases hxg : x = goal
      · subst hxg; exact hfx
      · have : b.stop = true := by
          unfold expand at hc
          dsimp only at hc
          rw [if_neg hxg, relaxs_stop] at hc
          exact hc
        exact absurd (Or.inl this) hd

/-- **C74** for UFMM, any arithmetic: as for GMM. -/
theorem _root_.FMV.C74_UFMM {dims : List Nat} {g : Grid F} {pts : List Nat} (hin : Input dims g pts)
    (hopen : ∀ i, g.state i = .opn) {size : Nat} (hz : 0 < size) (inc : F) (ub : F → Nat) (goal goal' : Nat) (hgoal : dims.prod ≤ goal') (n m : Nat) (s t : St F)
    (hs : Steps (Step goal eikS) n (init g (UQ.create size inc ub) pts) s) (hsd : Done s)
    (ht : Steps (Step goal' eikS) m (init g (UQ.create size inc ub) pts) t) (htd : Done t) :
    n ≤ m ∧ t.g.value goal = s.g.value goal ∧ (∀ i, s.g.state i = .frozen → t.g.value i = s.g.value i) ∧ (s.g.state goal ≠ .frozen → t.g = s.g) := by
  obtain ⟨h1, h2⟩ := goal_prefix (goal' := goal') hin hopen hz hgoal hs
  obtain ⟨k, hk, h3⟩ := FMV.Steps.prefix_of_det (r := Step goal' eikS) (fun _ _ _ h h' => step_det h h') h1 ht (fun d hd => hd.1 htd)
  have hfin : ∀ i, s.g.state i = .frozen → t.g.value i = s.g.value i := fun i hi => by
    have := C12_UFMM goal' eikS _ _ _ h3 i hi
    unfold Grid.value; rw [this]; rfl
  have hno : s.g.state goal ≠ .frozen → t.g = s.g := by
    intro hng
    have hst : s.stop = false := by
      cases h : s.stop with
      | false => rfl
      | true => exact absurd (h2 h) hng
    have hd : Done (erase s) := Or.inr (by
      rcases hsd with h | h
      · rw [hst] at h; cases h
      · exact h)
    cases h3 with
    | refl => rfl
    | tail h4 h5 =>
      obtain ⟨d, hd', -⟩ := FMV.Steps.uncons (Steps.tail h4 h5)
      exact absurd hd hd'.1
  refine ⟨by omega, ?_, hfin, hno⟩
  by_cases h : s.g.state goal = .frozen
  · exact hfin _ h
  · rw [hno h]

/-- non-vacuity: the empty 3x3 grid, start in a corner, goal in the opposite one, the default queue: both runs end -/
example : ∃ g : Grid XR, Input [3,3] g [0] ∧ (∀ i, g.state i = .opn) ∧
    (∃ n s, Steps (Step 8 eikS) n (init g (UQ.create 1000 (XR.fin 2) (fun _ => 0)) [0]) s ∧ Done s) ∧
    ∃ m t, Steps (Step noGoal eikS) m (init g (UQ.create 1000 (XR.fin 2) (fun _ => 0)) [0]) t ∧ Done t := by
  have hap : StartsApart [3,3] (Grid.create [3,3] (XR.fin 1) (0,0)) [0] := by
    intro i hi j hj _ hadj
    obtain ⟨k, h0, h1, h2, h3⟩ := hadj
    fin_cases hi; fin_cases hj
    have h4 : k = 0 ∨ k = 1 := by
      have : k < 2 := h1
      omega
    rcases h4 with rfl | rfl <;> revert h2 <;> decide
  have hin : Input [3,3] (Grid.create [3,3] (XR.fin 1) (0,0)) [0] := ⟨⟨by decide, by decide, by decide⟩, rfl, by decide⟩
  have hz := zeroFirst_exact (size := 1000) (inc := 2) (by norm_num) (fun _ => 0) [0]
  obtain ⟨n, s, _, h, hd, _⟩ := (C50_UFMM_terminates_partial hin (fun _ => rfl) hap (by norm_num) (XR.fin 2) (fun _ => 0) hz 8).2
  obtain ⟨m, t, _, h', hd', _⟩ := (C50_UFMM_terminates_partial hin (fun _ => rfl) hap (by norm_num) (XR.fin 2) (fun _ => 0) hz noGoal).2
  exact ⟨_, hin, fun _ => rfl, ⟨n, s, h, hd⟩, m, t, h', hd'⟩

end UFMM
end FMV
