import Verif.Model.F64
import Verif.Props.FMMTerm
import Verif.Props.FSM
import Verif.Props.DDQM
/-
The theorems that hold in any arithmetic with `MarginLaws`, for 64-bit doubles with any monotone rounding.
-/
namespace FMV
open Spec Shape FMM

/-- a double is finite or special -/
theorem F64.lt_laws (R : Rounding) : LtLaws (F64 R) where
  irrefl a := XR.ltLaws.irrefl a.1
  trans a b c := XR.ltLaws.trans a.1 b.1 c.1

theorem XR.lt_of_le_of_lt {a b c : XR} (h1 : XR.le a b = true) (h2 : XR.lt b c = true) : XR.lt a c = true := by
  cases a <;> cases b <;> cases c <;> simp_all [XR.le, XR.lt]
  linarith

/-- rounding a sum with a non-negative number never goes below the double one starts from -/
theorem F64.margin_laws (R : Rounding) : MarginLaws (F64 R) where
  toLtLaws := F64.lt_laws R
  margin_lt a b h := by
    obtain ⟨a, ha⟩ := a
    obtain ⟨b, hb⟩ := b
    change XR.lt (F64.rnd R (XR.add a (.fin XR.eps))).1 b = true at h
    show XR.lt a b = true
    cases a with
    | nan => cases b <;> simp [XR.add, F64.rnd, XR.lt] at h
    | ninf => cases b <;> simp_all [XR.add, F64.rnd, XR.lt]
    | pinf => cases b <;> simp [XR.add, F64.rnd, XR.lt] at h
    | fin r =>
      change XR.lt (R.rd (r + XR.eps)) b = true at h
      have h1 := R.mono r (r + XR.eps) (by linarith [XR.eps_pos])
      rw [R.exact r (ha r rfl)] at h1
      exact XR.lt_of_le_of_lt h1 h

/-- there are finitely many doubles -/
noncomputable instance (R : Rounding) : Fintype (F64 R) := by
  haveI : Finite (F64 R) := by
    have hf : Set.Finite {x : XR | ∀ r, x = .fin r → IsDouble r} := by
      refine Set.Finite.subset ((finite_isDouble.image XR.fin).union (Set.toFinite {XR.nan, XR.pinf, XR.ninf})) ?_
      intro x hx
      cases x with
      | fin r => exact .inl ⟨r, hx r rfl, rfl⟩
      | nan => right; simp
      | pinf => right; simp
      | ninf => right; simp
    exact hf.to_subtype
  exact Fintype.ofFinite _

/-- **C46** for doubles, whatever the rounding mode: `isTimeBetterThan` is irreflexive, asymmetric and transitive, false when an operand is NaN,
and between finite doubles it implies a difference above `COMP_MARGIN = 100000 * 2^-52` in spite of the rounding of the sum. -/
theorem C46_doubles (R : Rounding) :
    (∀ a : F64 R, Arith.better a a = false) ∧
    (∀ a b : F64 R, Arith.better a b = true → Arith.better b a = false) ∧
    (∀ a b c : F64 R, Arith.better a b = true → Arith.better b c = true → Arith.better a c = true) ∧
    (∀ a b : F64 R, a.1 = .nan ∨ b.1 = .nan → Arith.better a b = false) ∧
    (∀ (a b : F64 R) (x y : ℝ), a.1 = .fin x → b.1 = .fin y → Arith.better a b = true → 100000 / 2^52 < y - x) ∧
    (∀ (a b : F64 R) (x y : ℝ), a.1 = .fin x → b.1 = .fin y → IsDouble (x + 100000 / 2^52) → 100000 / 2^52 < y - x → Arith.better a b = true) := by
  obtain ⟨h1, h2, h3⟩ := C46_strict_order (F64.margin_laws R)
  have he : XR.eps = 100000 / 2^52 := by unfold XR.eps; norm_num
  refine ⟨h1, h2, h3, ?_, ?_, ?_⟩
  · rintro ⟨a, ha⟩ ⟨b, hb⟩ h
    show XR.lt (F64.rnd R (XR.add a (.fin XR.eps))).1 b = false
    rcases h with h | h
    · change a = XR.nan at h; subst h; cases b <;> rfl
    · change b = XR.nan at h; subst h
      generalize (F64.rnd R (XR.add a (.fin XR.eps))).1 = z
      cases z <;> rfl
  · rintro ⟨a, ha⟩ ⟨b, hb⟩ x y hx hy h
    change a = _ at hx; change b = _ at hy; subst hx hy
    change XR.lt (R.rd (x + XR.eps)) (.fin y) = true at h
    by_contra hc
    have h4 := R.mono y (x + XR.eps) (by linarith)
    rw [R.exact y (hb y rfl)] at h4
    have := XR.lt_of_le_of_lt h4 h
    simp [XR.lt] at this
  · rintro ⟨a, ha⟩ ⟨b, hb⟩ x y hx hy hd h
    change a = _ at hx; change b = _ at hy; subst hx hy
    show XR.lt (R.rd (x + XR.eps)) (.fin y) = true
    rw [← he] at hd h
    rw [R.exact _ hd]
    simp [XR.lt]; linarith

/-- **C13** for doubles: FMM and FMM* end after at most (cells + initial points) iterations. -/
theorem C13_doubles (R : Rounding) (cfg : Cfg (F64 R)) (hd : cfg.dup = false) (dims : List Nat) (g : Grid (F64 R)) (pts : List Nat)
    (hin : Input dims g pts) : ∃ n s, n ≤ dims.prod + pts.length ∧ Steps (StepMin cfg) n (FMM.init cfg g [] pts) s ∧ Done s :=
  C13_FMM_terminates (F64.lt_laws R) cfg hd dims g pts hin

/-- **C47** for doubles: SFMM and SFMM* end, and no order in which the queue may release its elements gives an infinite run. -/
theorem C47_doubles (R : Rounding) (cfg : Cfg (F64 R)) (dims : List Nat) (g : Grid (F64 R)) (pts : List Nat) (hin : Input dims g pts) :
    (∃ n s, Steps (StepMin cfg) n (FMM.init cfg g [] pts) s ∧ Done s) ∧
    ¬ ∃ f : Nat → St (F64 R), f 0 = FMM.init cfg g [] pts ∧ ∀ n, StepAny cfg (f n) (f (n+1)) :=
  ⟨C47_terminates (F64.margin_laws R) cfg dims g pts hin, C47_no_infinite_run (F64.margin_laws R) cfg dims g pts hin⟩

/-- **C23** for doubles: FSM ends (with any sweep limit). -/
theorem C23_doubles (R : Rounding) (goal m : Nat) (dims : List Nat) (g : Grid (F64 R)) (pts : List Nat) (hin : Input dims g pts) (sw : Nat)
    (incs : List Int) (hd : FSM.IsDirs dims.length incs) :
    (∃ n s, Steps (FSM.Step m (FSM.solveFSM goal eikS)) n (FSM.initFSM g pts sw incs) s ∧ FSM.Done m s) ∧
    ¬ ∃ f : Nat → FSM.St (F64 R), f 0 = FSM.initFSM g pts sw incs ∧ ∀ n, FSM.Step m (FSM.solveFSM goal eikS) (f n) (f (n+1)) :=
  C23_FSM_finite_arithmetic (F64.margin_laws R) goal m eikS dims g pts hin sw incs hd

/-- **C26** for doubles: LSM ends. -/
theorem C26_doubles (R : Rounding) (goal m : Nat) (dims : List Nat) (g : Grid (F64 R)) (pts : List Nat) (hin : Input dims g pts) (sw : Nat)
    (incs : List Int) (hd : FSM.IsDirs dims.length incs) :
    (∃ n s, Steps (FSM.Step m (FSM.solveLSM goal eikS)) n (FSM.initLSM g pts sw incs) s ∧ FSM.Done m s) ∧
    ¬ ∃ f : Nat → FSM.St (F64 R), f 0 = FSM.initLSM g pts sw incs ∧ ∀ n, FSM.Step m (FSM.solveLSM goal eikS) (f n) (f (n+1)) :=
  C26_LSM_finite_arithmetic (F64.margin_laws R) goal m eikS dims g pts hin sw incs hd

/-- **C27** for doubles: DDQM ends, whatever its threshold. -/
theorem C27_doubles (R : Rounding) (goal : Nat) (dims : List Nat) (g : Grid (F64 R)) (pts : List Nat) (hin : Input dims g pts) (th ths : F64 R) :
    (∃ n s, Steps (DDQM.Step goal eikS) n (DDQM.init g pts th ths) s ∧ DDQM.Done s) ∧
    ¬ ∃ f : Nat → DDQM.St (F64 R), f 0 = DDQM.init g pts th ths ∧ ∀ n, DDQM.Step goal eikS (f n) (f (n+1)) :=
  C27_DDQM_finite_arithmetic (F64.margin_laws R) goal eikS dims g pts hin th ths

/-- non-vacuity: rounding to nearest is a `Rounding`, and a 3 x 3 grid of doubles with a starting point in its corner is an input -/
example : ∃ (R : Rounding) (g : Grid (F64 R)), Input [3,3] g [0] ∧ R.rd (1/3) ≠ .fin (1/3) := by
  refine ⟨Rounding.nearest, Grid.create [3,3] Arith.one (0,0), ⟨⟨by decide, by decide, by decide⟩, rfl, by decide⟩, ?_⟩
  intro h
  have hd : IsDouble (1/3) := by
    rcases Rounding.nearest.mem (1/3) with ⟨s, hs, e⟩ | e | e <;> rw [h] at e
    · cases e; exact hs
    · cases e
    · cases e
  obtain ⟨m, e, h1, h2, h3, he⟩ := hd
  -- 1 = 3 m 2^e is impossible over the integers
  rcases le_or_gt 0 e with h0 | h0
  · obtain ⟨k, rfl⟩ := Int.eq_ofNat_of_zero_le h0
    have : (1:ℝ) = 3 * (m * 2^k) := by
      rw [zpow_natCast] at he; linarith
    have : (1:ℤ) = 3 * (m * 2^k) := by exact_mod_cast this
    omega
  · obtain ⟨k, hk⟩ := Int.eq_ofNat_of_zero_le (show 0 ≤ -e by omega)
    have e2 : e = -(k:ℤ) := by omega
    rw [e2, zpow_neg, zpow_natCast] at he
    have hp : (0:ℝ) < 2^k := by positivity
    have : (2:ℝ)^k = 3 * m := by field_simp at he; linarith
    have : (2:ℤ)^k = 3 * m := by exact_mod_cast this
    have h4 : ∀ k : Nat, (2:ℤ)^k % 3 ≠ 0 := by
      intro k
      induction k with
      | zero => norm_num
      | succ k ih => rw [pow_succ]; omega
    have := h4 k
    omega

end FMV
