import Verif.Lemmas.GMMInit64
/-! GMM in doubles with a small time step: the main loop (fm/gmm.hpp:86-141). -/
set_option linter.unusedSectionVars false
set_option linter.unusedVariables false
namespace FMV
open Spec Shape XR FMM
variable {R : Rounding}
namespace GMM64
open GMM
open GMMA (SCv Small bz kap)
variable {dims : List Nat} {g : Grid (F64 R)} {h : ℝ} {v : Nat → ℝ} {pts : List Nat} {cm cM A : ℝ}
variable {I : DInput dims g h v pts cm cM A} {w d d0 τ : ℝ}

/-- the standing assumptions, with the step `d0` of the code and a bound `d` of the step after rounding -/
structure SCtx (I : DInput dims g h v pts cm cM A) (w d d0 : ℝ) : Prop extends Ctx I w d where
  hd : d0 + 4 * A * uu ≤ d
  hδ : 4 * A * uu < d0
  hB : A + d * (dims.prod + 3) ≤ 4 * A

/-- number of cells that are not OPEN -/
noncomputable def NO (dims : List Nat) (g' : Grid (F64 R)) : Nat := ((Finset.range dims.prod).filter (fun i => g'.state i ≠ .opn)).card

theorem NO_le (g' : Grid (F64 R)) : NO dims g' ≤ dims.prod := by
  unfold NO
  have := Finset.card_filter_le (Finset.range dims.prod) (fun i => g'.state i ≠ .opn)
  simpa using this

theorem NO_mono {g1 g2 : Grid (F64 R)} (hm : ∀ k, g1.state k ≠ .opn → g2.state k ≠ .opn) : NO dims g1 ≤ NO dims g2 := by
  unfold NO
  apply Finset.card_le_card
  intro k hk
  simp only [Finset.mem_filter] at hk ⊢
  exact ⟨hk.1, hm k hk.2⟩

theorem NO_lt {g1 g2 : Grid (F64 R)} (hm : ∀ k, g1.state k ≠ .opn → g2.state k ≠ .opn) {j : Nat} (hj : j < dims.prod) (h1 : g1.state j = .opn)
    (h2 : g2.state j ≠ .opn) : NO dims g1 + 1 ≤ NO dims g2 := by
  unfold NO
  apply Finset.card_lt_card
  refine Finset.ssubset_iff_subset_ne.2 ⟨?_, ?_⟩
  · intro k hk
    simp only [Finset.mem_filter] at hk ⊢
    exact ⟨hk.1, hm k hk.2⟩
  · intro e
    have : j ∈ (Finset.range dims.prod).filter (fun i => g2.state i ≠ .opn) := by simp [hj, h2]
    rw [← e] at this
    simp [h1] at this

/-- the invariant of the main loop, relative to `tm_ = τ` -/
structure RT (I : DInput dims g h v pts cm cM A) (w d τ : ℝ) (s : GMM.St (F64 R)) : Prop where
  tm : s.tm.1 = .fin τ
  pos : 0 ≤ τ
  ri : RI I w d τ s.rest s.g
  bd : τ ≤ A + d * (NO dims s.g + 2)
  kept : A < τ → s.kept = []
  app : A < τ → s.app ≠ [] → τ ≤ A + d * (NO dims s.g + 1)

/-- the invariant of the main loop -/
structure RS (I : DInput dims g h v pts cm cM A) (w d : ℝ) (s : GMM.St (F64 R)) : Prop where
  ginv : GInv dims eikS g pts s
  finite : ∀ x ∈ s.gamma, tf s.g x ≠ ⊤
  rt : s.gamma = [] ∧ s.rest = [] ∧ (∃ τ : ℝ, RI I w d τ [] s.g) ∨ ∃ τ : ℝ, RT I w d τ s

theorem input64 (I : DInput dims g h v pts cm cM A) : Input dims g pts := ⟨I.X.fits, I.X.shape, I.X.inside⟩

theorem RS.start (C : SCtx I w d d0) (hfr : Fresh g) : RS I w d (GMM.init eikS g [] pts) := by
  have Y := Y64.start C.toCtx hfr
  have hgam : (GMM.init eikS g [] pts).gamma = (pts.foldl (GMM.initPoint eikS) (g, [], Arith.inf)).2.1 := by
    unfold GMM.init St.gamma; simp
  refine ⟨GInv.start eikS (input64 I) hfr.state, by rw [hgam]; exact Y.fin, ?_⟩
  have hg : (GMM.init eikS g [] pts).g = (pts.foldl (GMM.initPoint eikS) (g, [], Arith.inf)).1 := rfl
  have hrest : (GMM.init eikS g [] pts).rest = [] := rfl
  have happ : (GMM.init eikS g [] pts).app = [] := rfl
  have htm : (GMM.init eikS g [] pts).tm = (pts.foldl (GMM.initPoint eikS) (g, [], Arith.inf)).2.2 := rfl
  have hd := C.sm.d0
  rcases Y.tm with ⟨h1, h2⟩ | ⟨m, hm, hmw, h1⟩
  · left
    refine ⟨hgam.trans h2, rfl, 0, Y.ri C.toCtx ?_⟩
    intro y hy
    exact (Y.pos y hy).le
  · by_cases hne : (GMM.init eikS g [] pts).gamma = []
    · left
      refine ⟨hne, rfl, 0, Y.ri C.toCtx ?_⟩
      intro y hy
      exact (Y.pos y hy).le
    right
    have hτ : ∀ y, (pts.foldl (GMM.initPoint eikS) (g, [], Arith.inf)).1.state y ≠ .frozen →
        (m : WithTop ℝ) ≤ tf (pts.foldl (GMM.initPoint eikS) (g, [], Arith.inf)).1 y := by
      intro y hy
      have := Y.nar y hy
      rw [h1] at this
      exact this
    have hmA : m ≤ A := by
      have := C.toCtx.wA
      push_cast at this
      linarith
    refine ⟨m, h1, hm, Y.ri C.toCtx hτ, ?_, ?_, ?_⟩
    · have : 0 ≤ d * ((NO dims (GMM.init eikS g [] pts).g : ℝ) + 2) := by positivity
      linarith
    · intro hc; linarith
    · intro hc; linarith

/-- `tm_ += deltau_` in doubles -/
theorem add64 (C : SCtx I w d d0) {tm dt : F64 R} (ht : tm.1 = .fin τ) (hdt : dt.1 = .fin d0) (h0 : 0 ≤ τ) (hb : τ + d0 ≤ 4 * A) :
    ∃ τ', (Arith.add tm dt).1 = .fin τ' ∧ τ + (d0 - 4 * A * uu) ≤ τ' ∧ τ' ≤ τ + d := by
  have hA := I.Apos
  have hu := uu_pos
  have hAlo : (2:ℝ)^(-1000:ℤ) ≤ 4 * A := by
    have h3 := I.cmA
    have h4 := I.margin
    have h5 := eps_pos
    have h6 : (2:ℝ)^(-1000:ℤ) ≤ (2:ℝ)^(-52:ℤ) := zpow_le_zpow_right₀ (by norm_num) (by norm_num)
    have h7 : (2:ℝ)^(-52:ℤ) ≤ eps := by unfold XR.eps; rw [zpow_neg]; norm_num
    exact le_trans h6 (le_trans h7 (by linarith only [h3, h4, h5, hA]))
  have hAhi : 4 * A ≤ (2:ℝ)^(1000:ℤ) := by
    have h3 := I.A2
    have h4 : (2:ℝ)^(302:ℤ) = 4 * (2:ℝ)^(300:ℤ) := by
      rw [show (302:ℤ) = 2 + 300 by norm_num, zpow_add₀ (by norm_num)]; norm_num
    have h5 : (2:ℝ)^(302:ℤ) ≤ (2:ℝ)^(1000:ℤ) := zpow_le_zpow_right₀ (by norm_num) (by norm_num)
    refine le_trans ?_ h5
    rw [h4]
    generalize (2:ℝ)^(300:ℤ) = P at h3
    linarith only [h3, hA]
  have h1 := C.hδ
  have h2 := C.hd
  have h3 : 0 ≤ 4 * A * uu := by positivity
  have habs : |τ + d0| ≤ 4 * A := by rw [abs_of_nonneg (by linarith)]; exact hb
  obtain ⟨τ', d1, d2⟩ := rd_err R habs hAlo hAhi
  have h4 := abs_le.1 d2
  refine ⟨τ', ?_, by linarith [h4.1], by linarith [h4.2]⟩
  show (F64.rnd R (XR.add tm.1 dt.1)).1 = _
  rw [ht, hdt]; exact d1

/-- a pass over one element of the list -/
theorem RS.visit (C : SCtx I w d d0) {dt : F64 R} {goal : Nat} {s : GMM.St (F64 R)} (S : RS I w d s) {x : Nat} {rest : List Nat} (hr : s.rest = x :: rest) :
    RS I w d (GMM.visit goal eikS s x rest) ∧ (GMM.visit goal eikS s x rest).tm = s.tm ∧ (GMM.visit goal eikS s x rest).rest = rest := by
  have hnd : ¬ GMM.Done s := fun c => by have := c.1; rw [hr] at this; cases this
  have hst : GMM.Step dt goal eikS s (GMM.visit goal eikS s x rest) := ⟨hnd, by unfold GMM.next; rw [hr]⟩
  have G := (S.ginv.step (input64 I) hst).1
  rcases S.rt with ⟨_, h2, _⟩ | ⟨τ, T⟩
  · rw [hr] at h2; cases h2
  have hlt : ∀ x ∈ s.gamma, x < dims.prod := fun x hx => reach_lt (S.ginv.sound x hx).1
  have hxg : x ∈ s.gamma := by rw [mem_gamma, hr]; simp
  have hxN := hlt x hxg
  have T' := T.ri
  rw [hr] at T'
  have hsh : s.g.shape = Shape.mk' dims := T'.low.map.shape.trans I.X.shape
  have hRI := T'.visit C.toCtx hxN T.tm goal
  have hA := C.toCtx.le T'.low
  have hdd := C.sm.d0
  by_cases hle : Arith.le (s.g.value x) s.tm = true
  · have hN : ∀ j ∈ s.g.shape.nbrs x, j < dims.prod := fun j hj => nbr_lt I.X.fits hxN (by rw [hsh] at hj; exact hj)
    obtain ⟨b1, b2, b3, b4, b5, b6, b7, b8, b9⟩ := relax2s_spec eikS (N := dims.prod) (s.g.shape.nbrs x) s hN
    have e : GMM.visit goal eikS s x rest = { ((s.g.shape.nbrs x).foldl (GMM.relax2 eikS) s) with
        g := ((s.g.shape.nbrs x).foldl (GMM.relax2 eikS) s).g.setState x .frozen, rest := rest,
        stop := if x = goal then true else ((s.g.shape.nbrs x).foldl (GMM.relax2 eikS) s).stop } := by
      unfold GMM.visit; rw [if_pos hle]
    have hstate : ∀ k, (GMM.visit goal eikS s x rest).g.state k = if k = x then .frozen else
        if k ∈ s.g.shape.nbrs x ∧ ¬ Skip s.g k ∧ s.g.state k = .opn then .narrow else s.g.state k := by
      intro k; rw [e]; dsimp only; rw [Grid.state_setState, b4]
    have hmono : ∀ k, s.g.state k ≠ .opn → (GMM.visit goal eikS s x rest).g.state k ≠ .opn := by
      intro k hk
      rw [hstate]
      split
      · simp
      · split
        · simp
        · exact hk
    have ekept : (GMM.visit goal eikS s x rest).kept = s.kept := by rw [e]; exact b6
    have eapp : ∀ y, y ∈ (GMM.visit goal eikS s x rest).app ↔ y ∈ s.app ∨ (y ∈ s.g.shape.nbrs x ∧ ¬ Skip s.g y ∧ s.g.state y = .opn) := by
      intro y; rw [e]; exact b5 y
    have etm : (GMM.visit goal eikS s x rest).tm = s.tm := by rw [e]; exact b8
    have erest : (GMM.visit goal eikS s x rest).rest = rest := by rw [e]
    have hfin : ∀ y ∈ (GMM.visit goal eikS s x rest).gamma, tf (GMM.visit goal eikS s x rest).g y ≠ ⊤ := by
      have key : ∀ (ns : List Nat) (t : GMM.St (F64 R)), (∀ j ∈ ns, j ∈ (Shape.mk' dims).nbrs x) → I.GI w t.g → tf t.g x ≠ ⊤ →
          (∀ y, (tf t.g y ≠ ⊤ → tf (ns.foldl (GMM.relax2 eikS) t).g y ≠ ⊤)) ∧
          (∀ j ∈ ns, ¬ Skip t.g j → tf (ns.foldl (GMM.relax2 eikS) t).g j ≠ ⊤) := by
        intro ns
        induction ns with
        | nil => intro t _ _ _; exact ⟨fun _ h => h, by simp⟩
        | cons j js ih =>
          intro t hns J hx
          rw [List.foldl_cons]
          have hj := nbr_lt I.X.fits hxN (hns j (by simp))
          have hxj : x ∈ (Shape.mk' dims).nbrs j := nbrs_symm I.X.fits hxN (hns j (by simp))
          have J' : I.GI w (GMM.relax2 eikS t j).g := by
            have := DInput.GI.relax2s I C.w0 C.hw C.hwA [j] t (by simpa using hj) J
            simpa using this
          by_cases hsk : Skip t.g j
          · have e : GMM.relax2 eikS t j = t := by unfold GMM.relax2; rw [if_pos hsk]
            rw [e]
            obtain ⟨k1, k2⟩ := ih t (fun k hk => hns k (by simp [hk])) J hx
            refine ⟨k1, ?_⟩
            intro k hk hks
            rcases List.mem_cons.1 hk with rfl | hk
            · exact absurd hsk hks
            · exact k2 k hk hks
          · obtain ⟨h1, h2⟩ := (skip64 J.map).1 hsk
            have hu := lower_upd64 C.toCtx J hj h2
            have ev : ∀ k, tf (GMM.relax2 eikS t j).g k = tf (lower eikS t.g j) k := by
              intro k
              rw [tf_eq, tf_eq]
              unfold GMM.relax2; rw [if_neg hsk]
              dsimp only
              split
              · rw [Grid.value_setState]
              · rfl
            have hle : ∀ k, tf (GMM.relax2 eikS t j).g k ≤ tf t.g k := fun k => by rw [ev]; exact hu.le k
            obtain ⟨k1, k2⟩ := ih (GMM.relax2 eikS t j) (fun k hk => hns k (by simp [hk])) J' (ne_top_of_le_ne_top hx (hle x))
            have hjfin : tf (GMM.relax2 eikS t j).g j ≠ ⊤ := by
              by_cases hjt : tf t.g j = ⊤
              · obtain ⟨q, hq⟩ := WithTop.ne_top_iff_exists.1 hx
                have := (DInput.LInv.eik I C.hw (C.toCtx.cA t.g) J hj h2).2.2.2 x hxj q hq.symm (by rw [hjt]; exact WithTop.coe_lt_top _)
                rw [ev, hu.self]
                exact ne_top_of_le_ne_top (ne_top_of_le_ne_top WithTop.coe_ne_top this) (min_le_right _ _)
              · exact ne_top_of_le_ne_top hjt (hle j)
            refine ⟨fun y hy => k1 y (ne_top_of_le_ne_top hy (hle y)), ?_⟩
            intro k hk hks
            rcases List.mem_cons.1 hk with rfl | hk
            · exact k1 _ hjfin
            · by_cases hsk2 : Skip (GMM.relax2 eikS t j).g k
              · exfalso
                have c1 := (skip64 J.map).1 hks
                apply (skip64 J'.map).2 ⟨?_, c1.2⟩ hsk2
                rw [(relax2_spec eikS t hj).2.2.2.1]
                split
                · simp
                · exact c1.1
              · exact k2 k hk hsk2
      obtain ⟨k1, k2⟩ := key (s.g.shape.nbrs x) s (fun j hj => by rw [hsh] at hj; exact hj) T'.low (S.finite x hxg)
      have etf : ∀ y, tf (GMM.visit goal eikS s x rest).g y = tf ((s.g.shape.nbrs x).foldl (GMM.relax2 eikS) s).g y := by
        intro y; rw [e]; dsimp only; rw [tf_eq, tf_eq, Grid.value_setState]
      intro y hy
      rw [etf]
      rw [mem_gamma, ekept, erest, eapp] at hy
      rcases hy with hy | hy | hy | hy
      · exact k1 y (S.finite y (by rw [mem_gamma]; exact Or.inl hy))
      · exact k1 y (S.finite y (by rw [mem_gamma, hr]; exact Or.inr (Or.inl (by simp [hy]))))
      · exact k1 y (S.finite y (by rw [mem_gamma]; exact Or.inr (Or.inr hy)))
      · exact k2 y hy.1 hy.2.1
    refine ⟨⟨G, hfin, Or.inr ⟨τ, by rw [etm]; exact T.tm, T.pos, by rw [erest]; exact hRI, ?_, ?_, ?_⟩⟩, etm, erest⟩
    · have := NO_mono (dims := dims) hmono
      have h2 : ((NO dims s.g : ℝ) + 2) ≤ (NO dims (GMM.visit goal eikS s x rest).g : ℝ) + 2 := by
        have : (NO dims s.g : ℝ) ≤ (NO dims (GMM.visit goal eikS s x rest).g : ℝ) := by exact_mod_cast this
        linarith
      have := mul_le_mul_of_nonneg_left h2 hdd
      linarith [T.bd]
    · intro hc; rw [ekept]; exact T.kept hc
    · intro hc hne
      obtain ⟨y, hy⟩ := List.exists_mem_of_ne_nil _ hne
      rw [eapp] at hy
      rcases hy with hy | ⟨hy1, hy2, hy3⟩
      · have h1 := T.app hc (List.ne_nil_of_mem hy)
        have := NO_mono (dims := dims) hmono
        have h2 : ((NO dims s.g : ℝ) + 1) ≤ (NO dims (GMM.visit goal eikS s x rest).g : ℝ) + 1 := by
          have : (NO dims s.g : ℝ) ≤ (NO dims (GMM.visit goal eikS s x rest).g : ℝ) := by exact_mod_cast this
          linarith
        have := mul_le_mul_of_nonneg_left h2 hdd
        linarith
      · have hlt := NO_lt (dims := dims) hmono (hN y hy1) hy3 (by
          rw [hstate]; split
          · simp
          · rw [if_pos ⟨hy1, hy2, hy3⟩]; simp)
        have h2 : ((NO dims s.g : ℝ) + 2) ≤ (NO dims (GMM.visit goal eikS s x rest).g : ℝ) + 1 := by
          have : (NO dims s.g : ℝ) + 1 ≤ (NO dims (GMM.visit goal eikS s x rest).g : ℝ) := by exact_mod_cast hlt
          linarith
        have := mul_le_mul_of_nonneg_left h2 hdd
        linarith [T.bd]
  · have e : GMM.visit goal eikS s x rest = { s with kept := s.kept ++ [x], rest := rest } := by
      unfold GMM.visit; rw [if_neg hle]
    rw [e] at hRI G ⊢
    refine ⟨⟨G, ?_, Or.inr ⟨τ, T.tm, T.pos, hRI, T.bd, ?_, T.app⟩⟩, rfl, rfl⟩
    · intro y hy
      apply S.finite y
      rw [mem_gamma] at hy ⊢
      rw [hr]
      dsimp only at hy
      simp only [List.mem_append, List.mem_singleton, List.mem_cons] at hy ⊢
      tauto
    · intro hc
      exfalso
      obtain ⟨q, hq⟩ := WithTop.ne_top_iff_exists.1 (S.finite x hxg)
      have := hA x q hq.symm
      apply hle
      refine (le_tm (a := s.g.value x) (T'.low.good x) T.tm).2 ?_
      have e2 : toT (s.g.value x).1 = (q : WithTop ℝ) := hq.symm
      rw [e2]
      exact_mod_cast (by linarith : q ≤ τ)

/-- a new round -/
theorem RS.begin (C : SCtx I w d d0) {dt : F64 R} (hdt : dt.1 = .fin d0) {goal : Nat} {s : GMM.St (F64 R)} (S : RS I w d s) (hr : s.rest = [])
    (hnd : ¬ GMM.Done s) :
    RS I w d (GMM.begin dt eikS s) ∧ ∃ τ τ' : ℝ, s.tm.1 = .fin τ ∧ (GMM.begin dt eikS s).tm.1 = .fin τ' ∧ τ + (d0 - 4 * A * uu) ≤ τ' := by
  have hst : GMM.Step dt goal eikS s (GMM.begin dt eikS s) := ⟨hnd, by unfold GMM.next; rw [hr]⟩
  have G := (S.ginv.step (input64 I) hst).1
  rcases S.rt with ⟨h1, h2, _⟩ | ⟨τ, T⟩
  · exact absurd ⟨h2, Or.inr h1⟩ hnd
  have hgne : s.gamma ≠ [] := fun c => hnd ⟨hr, Or.inr c⟩
  have hlt : ∀ x ∈ s.gamma, x < dims.prod := fun x hx => reach_lt (S.ginv.sound x hx).1
  have T' := T.ri
  rw [hr] at T'
  have hdd := C.sm.d0
  have hN : (NO dims s.g : ℝ) ≤ dims.prod := by exact_mod_cast NO_le s.g
  have hd1 := C.hd
  have hu3 : 0 ≤ 4 * A * uu := by have := I.Apos; have := uu_pos; positivity
  have hbig : τ + d0 ≤ 4 * A := by
    have h1 := T.bd
    have h2 := mul_le_mul_of_nonneg_left hN hdd
    have h3 := C.hB
    nlinarith
  obtain ⟨τ', t1, t2, t3⟩ := add64 C T.tm hdt T.pos hbig
  have hδ := C.hδ
  have hsh : s.g.shape = Shape.mk' dims := T'.low.map.shape.trans I.X.shape
  have p1 := pass1_p1 eikS I.X.fits (Arith.add s.tm dt) s.gamma s.g hsh hlt
  have eNO : NO dims (GMM.begin dt eikS s).g = NO dims s.g := by
    unfold NO
    congr 1
    apply Finset.filter_congr
    intro k _
    show (GMM.pass1 eikS (Arith.add s.tm dt) s.gamma s.g).state k ≠ .opn ↔ _
    rw [p1.state]
  have hopn : ∀ y, y < dims.prod → g.occ y = false → s.g.state y = .opn → tf s.g y = ⊤ := by
    intro y hy ho hop
    by_contra hne
    obtain ⟨z, hz, _⟩ := T'.i4 y hy ho hop hne
    simp at hz
  have hRI0 : RI I w d τ' s.gamma s.g := by
    refine ⟨T'.low, T'.rb.round C.sm (by linarith) t3 ?_, ?_⟩
    · intro y hy ho hf hng
      have hop : s.g.state y = .opn := by
        cases e : s.g.state y with
        | opn => rfl
        | frozen => exact absurd e hf
        | narrow => exact absurd (S.ginv.nar y e) hng
      refine ⟨hopn y hy ho hop, ?_⟩
      intro j hj hjf
      exact S.ginv.closed (zeroOcc64 g) j hjf y (nbrs_symm I.X.fits hy hj) ho hop
    · intro y hy ho hst hne
      exact absurd (hopn y hy ho hst) hne
  have hRI : RI I w d τ' s.gamma (GMM.pass1 eikS (Arith.add s.tm dt) s.gamma s.g) := RI.pass1 C.toCtx hlt t1 hRI0
  have hfin : ∀ x, tf s.g x ≠ ⊤ → tf (GMM.pass1 eikS (Arith.add s.tm dt) s.gamma s.g) x ≠ ⊤ := by
    intro x hx
    unfold GMM.pass1
    refine (foldl_inv (I := fun g1 : Grid (F64 R) => I.GI w g1 ∧ tf g1 x ≠ ⊤) _ _ _ ⟨T'.low, hx⟩ ?_).2
    rintro g1 y hy ⟨J1, J2⟩
    split
    · refine foldl_inv (I := fun g1 : Grid (F64 R) => I.GI w g1 ∧ tf g1 x ≠ ⊤) _ _ _ ⟨J1, J2⟩ ?_
      rintro g2 j hj ⟨K1, K2⟩
      have hyN : y < dims.prod := hlt y (by simpa using hy)
      have hjN : j < dims.prod := by
        rw [J1.map.shape.trans I.X.shape] at hj
        exact nbr_lt I.X.fits hyN hj
      refine ⟨?_, ne_top_of_le_ne_top K2 (relax1_le64 C.toCtx K1 hjN x)⟩
      unfold GMM.relax1
      split
      · exact K1
      · next hns => exact gi_lower C.toCtx K1 hjN ((skip64 K1.map).1 hns).2
    · exact ⟨J1, J2⟩
  have hgam : (GMM.begin dt eikS s).gamma = s.gamma := by unfold GMM.begin St.gamma; simp
  refine ⟨⟨G, ?_, Or.inr ⟨τ', t1, by linarith [T.pos], hRI, ?_, fun _ => rfl, fun _ c => absurd rfl c⟩⟩, τ, τ', T.tm, t1, t2⟩
  · intro x hx
    rw [hgam] at hx
    exact hfin x (S.finite x hx)
  · rw [eNO]
    have hn0 : (0:ℝ) ≤ NO dims s.g := Nat.cast_nonneg _
    by_cases hc : A < τ
    · have hk := T.kept hc
      have hap : s.app ≠ [] := by
        intro ha
        apply hgne
        unfold St.gamma
        rw [hk, hr, ha]; rfl
      have := T.app hc hap
      have e : d * ((NO dims s.g : ℝ) + 2) = d * ((NO dims s.g : ℝ) + 1) + d := by ring
      rw [e]; linarith
    · have : 0 ≤ d * ((NO dims s.g : ℝ) + 1) := by positivity
      have e : d * ((NO dims s.g : ℝ) + 2) = d * ((NO dims s.g : ℝ) + 1) + d := by ring
      rw [e]; linarith

theorem RS.step (C : SCtx I w d d0) {dt : F64 R} (hdt : dt.1 = .fin d0) {goal : Nat} {s t : GMM.St (F64 R)} (S : RS I w d s)
    (hst : GMM.Step dt goal eikS s t) : RS I w d t := by
  obtain ⟨hnd, rfl⟩ := hst
  unfold GMM.next
  split
  · next x rest hr => exact (S.visit (dt := dt) C hr).1
  · next hr => exact (S.begin C hdt (goal := goal) hr hnd).1

/-- every run ends -/
theorem RS.ends (C : SCtx I w d d0) {dt : F64 R} (hdt : dt.1 = .fin d0) {goal : Nat} : ∀ (K L : Nat) (s : GMM.St (F64 R)), RS I w d s →
    s.rest.length = L → (∀ τ : ℝ, s.tm.1 = .fin τ → A + d * (dims.prod + 2) ≤ τ + K * (d0 - 4 * A * uu)) →
    ∃ n t, Steps (GMM.Step dt goal eikS) n s t ∧ GMM.Done t := by
  have hδ := C.hδ
  intro K
  induction K with
  | zero =>
    intro L
    induction L with
    | zero =>
      intro s S hL hK
      by_cases hnd : GMM.Done s
      · exact ⟨0, s, .refl _, hnd⟩
      exfalso
      have hr : s.rest = [] := List.length_eq_zero_iff.1 hL
      obtain ⟨S', τ, τ', h1, h2, h3⟩ := S.begin C hdt (goal := goal) hr hnd
      have h4 := hK τ h1
      rcases S'.rt with ⟨h5, _, _⟩ | ⟨σ, T⟩
      · apply hnd
        refine ⟨hr, Or.inr ?_⟩
        have hgam : (GMM.begin dt eikS s).gamma = s.gamma := by unfold GMM.begin St.gamma; simp
        rw [← hgam]; exact h5
      · have e : σ = τ' := by
          have := T.tm.symm.trans h2
          injection this
        subst e
        have h6 := T.bd
        have hN : (NO dims (GMM.begin dt eikS s).g : ℝ) ≤ dims.prod := by exact_mod_cast NO_le _
        have h7 := mul_le_mul_of_nonneg_left hN C.sm.d0
        simp only [Nat.cast_zero, zero_mul, add_zero] at h4
        nlinarith
    | succ L ih =>
      intro s S hL hK
      obtain ⟨x, rest, hr⟩ := List.exists_cons_of_length_eq_add_one hL
      obtain ⟨S', h1, h2⟩ := S.visit (dt := dt) (goal := goal) C hr
      have hst : GMM.Step dt goal eikS s (GMM.visit goal eikS s x rest) :=
        ⟨fun c => (by have := c.1; rw [hr] at this; cases this), by unfold GMM.next; rw [hr]⟩
      obtain ⟨n, t, hs, hd⟩ := ih _ S' (by rw [h2]; rw [hr] at hL; simpa using hL) (by rw [h1]; exact hK)
      exact ⟨_, t, Steps.head hst hs, hd⟩
  | succ K ihK =>
    intro L
    induction L with
    | zero =>
      intro s S hL hK
      by_cases hnd : GMM.Done s
      · exact ⟨0, s, .refl _, hnd⟩
      have hr : s.rest = [] := List.length_eq_zero_iff.1 hL
      obtain ⟨S', τ, τ', h1, h2, h3⟩ := S.begin C hdt (goal := goal) hr hnd
      have hst : GMM.Step dt goal eikS s (GMM.begin dt eikS s) := ⟨hnd, by unfold GMM.next; rw [hr]⟩
      obtain ⟨n, t, hs, hd⟩ := ihK _ _ S' rfl (by
        intro σ hσ
        have e : σ = τ' := by
          have := hσ.symm.trans h2
          injection this
        subst e
        have := hK τ h1
        rw [Nat.cast_succ] at this
        have e : ((K:ℝ) + 1) * (d0 - 4 * A * uu) = K * (d0 - 4 * A * uu) + (d0 - 4 * A * uu) := by ring
        rw [e] at this
        linarith)
      exact ⟨_, t, Steps.head hst hs, hd⟩
    | succ L ih =>
      intro s S hL hK
      obtain ⟨x, rest, hr⟩ := List.exists_cons_of_length_eq_add_one hL
      obtain ⟨S', h1, h2⟩ := S.visit (dt := dt) (goal := goal) C hr
      have hst : GMM.Step dt goal eikS s (GMM.visit goal eikS s x rest) :=
        ⟨fun c => (by have := c.1; rw [hr] at this; cases this), by unfold GMM.next; rw [hr]⟩
      obtain ⟨n, t, hs, hd⟩ := ih _ S' (by rw [h2]; rw [hr] at hL; simpa using hL) (by rw [h1]; exact hK)
      exact ⟨_, t, Steps.head hst hs, hd⟩

end GMM64
end FMV
