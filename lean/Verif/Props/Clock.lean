import Verif.Model.Clock
import Mathlib.Tactic.Linarith
import Mathlib.Tactic.NormNum
/-!
# C110: the times the solvers report
-/
set_option linter.unusedVariables false
namespace FMV.Clock

theorem ms_le (a b : Nat) : 1000000 * ms a b ≤ b - a := Nat.mul_div_le _ _

theorem lt_ms (a b : Nat) : b - a < 1000000 * (ms a b + 1) := by
  unfold ms
  have := Nat.lt_div_mul_add (a := b - a) (b := 1000000) (by norm_num)
  omega

theorem plain_time {n t c : Nat} {w w' : Watch} (h : plain n t w c w') : ∃ m, w'.time = some m ∧ 1000000 * m + t ≤ c ∧ n < 1000000 * (m + 1) ∧ t + n ≤ c := by
  cases h with
  | @mk _ a b _ _ s' h1 h2 h3 =>
    obtain ⟨h4, rfl⟩ := h2
    have e1 := ms_le a c
    have e2 := lt_ms a c
    refine ⟨ms a c, rfl, ?_, ?_, ?_⟩ <;> generalize ms a c = m at e1 e2 ⊢ <;> omega

/-- **C110**: after `compute()`, whatever happened to the solver before, `getTime()` is the duration of this call in whole milliseconds: at most the time between the call and its return, and less
than one millisecond below the time `computeInternal()` took (every solver class but FM2 and FM2*). -/
theorem _root_.FMV.C110_getTime {n t c : Nat} {w w' : Watch} (h : plain n t w c w') :
    ∃ m, getTime w' = some m ∧ 1000000 * m ≤ c - t ∧ n < 1000000 * (m + 1) := by
  obtain ⟨m, h1, h2, h3, _⟩ := plain_time h
  exact ⟨m, h1, by omega, h3⟩

theorem velocities_time {n1 n2 a d : Nat} {s s' : FM2Watch} (h : Velocities n1 n2 a s d s') :
    ∃ v, s'.vels = some v ∧ 1000000 * v + a ≤ d ∧ n1 + n2 < 1000000 * (v + 2) ∧ a + n1 + n2 ≤ d := by
  cases h with
  | @mk _ a' b c _ _ w h1 h2 h3 h4 =>
    obtain ⟨m, e1, e2, e3, e4⟩ := plain_time h2
    have e5 := ms_le c d
    have e6 := lt_ms c d
    refine ⟨m + ms c d, by dsimp only; rw [e1]; rfl, ?_, ?_, by omega⟩ <;> generalize ms c d = k at e5 e6 ⊢ <;> omega

/-- **C110** (FM2 and FM2*): after `compute()`, `getTimeVelocities()` is the time of the velocities map up to two milliseconds, `getTime()` is that of the second wave only, up to one; together they
are at most the duration of the call, and `getTime()` never contains the first wave and the rescaling. -/
theorem _root_.FMV.C110_FM2_partial {n1 n2 n3 t c : Nat} {s s' : FM2Watch} (h : fm2 n1 n2 n3 t s c s') :
    ∃ m v, getTime s'.own = some m ∧ s'.vels = some v ∧ 1000000 * (v + m) ≤ c - t ∧ n3 < 1000000 * (m + 1) ∧ n1 + n2 < 1000000 * (v + 2) ∧
      1000000 * m + n1 + n2 ≤ c - t := by
  cases h with
  | @mk _ a b _ _ s1 h1 h2 h3 =>
    cases h2 with
    | @mk _ a' b' c' d e _ _ s2 w g1 g2 g3 g4 g5 g6 =>
      obtain ⟨v, e1, e2, e3, e4⟩ := velocities_time g2
      obtain ⟨m', f1, f2, f3, f4⟩ := plain_time g5
      have e5 := ms_le c' c
      have e6 := lt_ms c' c
      refine ⟨ms c' c, v, rfl, e1, ?_, ?_, e3, ?_⟩ <;> generalize ms c' c = k at e5 e6 ⊢ <;> omega

theorem exact (n t : Nat) (w : Watch) : plain n t w (t + n) { w with start := t, stop := t + n, time := some (ms t (t + n)) } :=
  Compute.mk (get := id) (set := fun _ w => w) (s' := { w with start := t }) (le_refl _) (And.intro (le_refl _) rfl) (le_refl _)

/-- **C110**, what fails: the time of an FM2 or FM2* run, which is also the one a benchmark logs, can be 0 however long the call takes, from any state before. -/
theorem _root_.FMV.C110_refuted_FM2 (n1 n2 t : Nat) (s : FM2Watch) : ∃ c s', fm2 n1 n2 0 t s c s' ∧ n1 + n2 ≤ c - t ∧ getTime s'.own = some 0 := by
  refine ⟨t + n1 + n2, _, Compute.mk (le_refl t) (.mk (le_refl t) (.mk (le_refl t) (exact n1 t _) (le_refl _) (le_refl _)) (le_refl _) (le_refl _) (exact 0 _ _) (le_refl _)) (le_refl _), by omega, ?_⟩
  show some (ms (t + n1 + n2) (t + n1 + n2)) = some 0
  unfold ms; simp

/-- non-vacuity: 2.5 ms of work, reported as 2 ms; an FM2 run of 3.7 + 0.4 + 2.9 ms, reported as 3 and 2 -/
example : (∃ w', plain 2500000 7 ⟨0, 0, none⟩ 2500007 w' ∧ getTime w' = some 2) ∧
    ∃ s', fm2 3700000 400000 2900000 0 ⟨⟨0, 0, none⟩, ⟨0, 0, none⟩, none⟩ 7000000 s' ∧ getTime s'.own = some 2 ∧ s'.vels = some 3 := by
  refine ⟨⟨_, exact 2500000 7 _, ?_⟩, ?_⟩
  · show some (ms 7 2500007) = some 2
    norm_num [ms]
  · refine ⟨_, Compute.mk (le_refl 0) (.mk (le_refl 0) (.mk (d := 4100000) (le_refl 0) (exact 3700000 0 _) (le_refl _) (by norm_num)) (le_refl _) (le_refl _) (exact 2900000 _ _) (le_refl _))
      (by norm_num), ?_, ?_⟩
    · show some (ms 4100000 7000000) = some 2
      norm_num [ms]
    · show some (ms 0 (0 + 3700000) + ms (0 + 3700000) 4100000) = some 3
      norm_num [ms]

end FMV.Clock
