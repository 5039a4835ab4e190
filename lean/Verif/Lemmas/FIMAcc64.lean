import Verif.Props.LowF64
import Verif.Props.FIM
import Verif.Props.F64Accuracy
/-! FIM in doubles: the invariant behind C96 (the analogue of `FIM.AInv` with the error of the rounded local solver). -/
set_option linter.unusedSectionVars false
set_option linter.unusedVariables false
namespace FMV
open Spec Shape XR FMM
variable {R : Rounding}
namespace FIM
variable {dims : List Nat} {g : Grid (F64 R)} {h : ℝ} {v : Nat → ℝ} {pts : List Nat} {cm cM A : ℝ}

/-- times with the active cells taken as unreached -/
noncomputable def mask64 (g' : Grid (F64 R)) (i : Nat) : WithTop ℝ := if g'.state i = .narrow then ⊤ else tf g' i

/-- `mask64`, but cell `x` is visible -/
noncomputable def maskx64 (x : Nat) (g' : Grid (F64 R)) (i : Nat) : WithTop ℝ := if i = x then tf g' i else mask64 g' i

theorem tf_le_maskx64 (x : Nat) (g' : Grid (F64 R)) (i : Nat) : tf g' i ≤ maskx64 x g' i := by
  unfold maskx64 mask64; split
  · exact le_refl _
  · split
    · exact le_top
    · exact le_refl _

/-- the convergence test `|p - q| <= E_` in doubles -/
theorem conv_test64 (I : DInput dims g h v pts cm cM A) {E : F64 R} {e : ℝ} (hE : E.1 = .fin e) {p q : F64 R} (hp : GoodT p.1) (hq : GoodT q.1)
    (hpA : ∀ r : ℝ, toT p.1 = (r : WithTop ℝ) → r ≤ A) (hqA : ∀ r : ℝ, toT q.1 = (r : WithTop ℝ) → r ≤ 3 * A)
    (hc : Arith.le (Arith.abs (Arith.sub p q)) E = true) :
    ∃ a b : ℝ, toT p.1 = (a : WithTop ℝ) ∧ toT q.1 = (b : WithTop ℝ) ∧ |a - b| ≤ e + 3 * A * uu := by
  have hc : XR.le (XR.abs (F64.rnd R (XR.add p.1 (XR.neg q.1))).1) E.1 = true := hc
  rw [hE] at hc
  rcases hp with hp | ⟨a, ha, hp⟩
  · rcases hq with hq | ⟨b, _, hq⟩ <;> rw [hp, hq] at hc <;> simp [XR.add, XR.neg, XR.abs, XR.le, F64.rnd] at hc
  · rcases hq with hq | ⟨b, hb, hq⟩
    · rw [hp, hq] at hc; simp [XR.add, XR.neg, XR.abs, XR.le, F64.rnd] at hc
    · have h1 : a ≤ A := hpA a (by rw [hp]; rfl)
      have h2 : b ≤ 3 * A := hqA b (by rw [hq]; rfl)
      have hA := I.Apos
      have hcm := I.cm0
      have habs : |a + -b| ≤ 3 * A := by rw [abs_le]; constructor <;> linarith
      have hAlo : (2:ℝ)^(-1000:ℤ) ≤ 3 * A := by
        have h3 := I.margin
        have h4 := I.cmA
        have h5 := eps_pos
        have h6 : (2:ℝ)^(-1000:ℤ) ≤ (2:ℝ)^(-52:ℤ) := zpow_le_zpow_right₀ (by norm_num) (by norm_num)
        have h7 : (2:ℝ)^(-52:ℤ) ≤ eps := by unfold XR.eps; rw [zpow_neg]; norm_num
        exact le_trans h6 (le_trans h7 (by linarith only [h3, h4, h5, hA]))
      have hAhi : 3 * A ≤ (2:ℝ)^(1000:ℤ) := by
        have h3 := I.A2
        have h4 : (2:ℝ)^(302:ℤ) = 4 * (2:ℝ)^(300:ℤ) := by
          rw [show (302:ℤ) = 2 + 300 by norm_num, zpow_add₀ (by norm_num)]; norm_num
        have h5 : (2:ℝ)^(302:ℤ) ≤ (2:ℝ)^(1000:ℤ) := zpow_le_zpow_right₀ (by norm_num) (by norm_num)
        refine le_trans ?_ h5
        rw [h4]
        generalize (2:ℝ)^(300:ℤ) = P at h3
        linarith only [h3, hA]
      obtain ⟨d, d1, d2⟩ := rd_err R habs hAlo hAhi
      refine ⟨a, b, by rw [hp]; rfl, by rw [hq]; rfl, ?_⟩
      rw [hp, hq] at hc
      have hc : XR.le (XR.abs (R.rd (a + -b))) (.fin e) = true := hc
      rw [d1] at hc
      have h3 : |d| ≤ e := by simpa [XR.abs, XR.le] using hc
      have h4 := abs_le.1 h3
      have h5 := abs_le.1 d2
      rw [abs_le]
      constructor <;> linarith [h4.1, h4.2, h5.1, h5.2]

/-- a cell whose value changed by at most `e'` in an update is converged -/
theorem conv_of_close64 (I : DInput dims g h v pts cm cM A) {T T' : Nat → WithTop ℝ} {i : Nat} (hi : i < dims.prod) {e' : ℝ}
    (he : 0 ≤ e') {a b : ℝ} (ha : T i = (a : WithTop ℝ)) (hb : T' i = (b : WithTop ℝ)) (hab : |a - b| ≤ e')
    (hu : Apr (h / v i) I.θ I.β (T i) (mins (Shape.mk' dims) T i) (T' i)) (h1 : ∀ k, k ≠ i → T' k = T k) :
    I.X.Conv T' (2 * I.β + e') i := by
  have hβ := I.β_pos
  intro Y hY
  rw [I.X.mins_congr hi h1] at hY
  by_cases hlt : (Y : WithTop ℝ) < T i
  · refine le_trans (hu.upper Y hlt hY) ?_
    have : Y + I.β ≤ Y + (2 * I.β + e') := by linarith
    exact_mod_cast this
  · have h2 := not_lt.1 hlt
    rw [ha] at h2
    have h3 : a ≤ Y := by exact_mod_cast h2
    rw [hb]
    have h4 := abs_le.1 hab
    have : b ≤ Y + (2 * I.β + e') := by linarith [h4.1]
    exact_mod_cast this

/-- a cell the code would not improve is converged -/
theorem conv_of_reject64 (I : DInput dims g h v pts cm cM A) {g' : Grid (F64 R)} (hm : SameMap g g') (hg : GoodG (gridX g'))
    (hA : ∀ i (r : ℝ), tf g' i = (r : WithTop ℝ) → r ≤ A) {i : Nat} (hi : i < dims.prod) (ho : g.occ i = false)
    (hb : Arith.better (eikS g' i).1 (g'.value i) = false) : I.X.Conv (tf g') (2 * I.β) i := by
  obtain ⟨hgd, hap⟩ := I.eik hm hg hA hi ho
  have hrej := I.reject hgd (hg i) hb (I.eik_le hA hi ho hap)
  have hβ := I.β_pos
  intro Y hY
  by_cases hlt : (Y : WithTop ℝ) < tf g' i
  · refine le_trans hrej ?_
    refine le_trans (add_le_add_left (hap.upper Y hlt hY) _) ?_
    have : Y + I.β + I.β ≤ Y + 2 * I.β := by linarith
    exact_mod_cast this
  · refine le_trans (not_lt.1 hlt) ?_
    have : Y ≤ Y + 2 * I.β := by linarith
    exact_mod_cast this

/-- the invariant of FIM in doubles, apart from the bounds on times -/
structure AInv64 (I : DInput dims g h v pts cm cM A) (e' : ℝ) (s : St (F64 R)) : Prop where
  act : ∀ i, Active s i → i < dims.prod ∧ g.occ i = false ∧ s.g.state i = .narrow
  nar : ∀ i, i < dims.prod → s.g.state i = .narrow → Active s i
  nodup : (s.before ++ s.after).Nodup
  src : ∀ i ∈ pts, s.g.state i = .frozen ∧ tf s.g i = 0
  conv : ∀ i, i < dims.prod → g.occ i = false → i ∉ pts → s.g.state i ≠ .narrow → I.X.Conv (mask64 s.g) (2 * I.β + e') i

/-- the invariant while the neighbours of the converged cell `x` are tested -/
structure AMid64 (I : DInput dims g h v pts cm cM A) (e' w : ℝ) (extra : Nat) (x : Nat) (todo : List Nat) (s : St (F64 R)) : Prop where
  low : I.LInv w (extra + (DInput.reached dims s.g).card) s.g
  act : ∀ i, Active s i → i < dims.prod ∧ g.occ i = false ∧ s.g.state i = .narrow
  nar : ∀ i, i < dims.prod → s.g.state i = .narrow → Active s i
  nodup : (s.before ++ s.after).Nodup
  src : ∀ i ∈ pts, s.g.state i = .frozen ∧ tf s.g i = 0
  xn : s.g.state x = .narrow
  conv1 : ∀ i, i < dims.prod → g.occ i = false → i ∉ pts → (s.g.state i ≠ .narrow ∨ i = x) → i ∉ todo →
    I.X.Conv (maskx64 x s.g) (2 * I.β + e') i
  conv2 : ∀ i, i < dims.prod → g.occ i = false → i ∉ pts → s.g.state i ≠ .narrow → i ∈ todo → I.X.Conv (mask64 s.g) (2 * I.β + e') i

theorem AMid64.test (I : DInput dims g h v pts cm cM A) {e' w : ℝ} (he : 0 ≤ e') (w0 : 0 ≤ w)
    (hw : ∀ i, i < dims.prod → g.occ i = false → h / v i + I.β ≤ w) {extra : Nat} (hwA : w * (extra + dims.prod) ≤ A)
    {x n : Nat} (hxN : x < dims.prod) {todo : List Nat}
    (hn : n ∈ (Shape.mk' dims).nbrs x) (hnt : n ∉ todo) {s : St (F64 R)}
    (J : AMid64 I e' w extra x (n :: todo) s) : AMid64 I e' w extra x todo (testNbr eikS s n) := by
  have hnN := nbr_lt I.X.fits hxN hn
  have hnx : n ≠ x := by rintro rfl; exact nbrs_irrefl I.X.fits hnN hn
  have hlow := I.fim_test w0 hw hwA [n] s (by simpa using hnN) J.low
  rw [List.foldl_cons, List.foldl_nil] at hlow
  have hcA : w * ((extra + (DInput.reached dims s.g).card : Nat) : ℝ) ≤ A := by
    refine le_trans (mul_le_mul_of_nonneg_left ?_ w0) hwA
    have := DInput.card_reached_le (dims := dims) s.g
    exact_mod_cast (by omega : extra + (DInput.reached dims s.g).card ≤ extra + dims.prod)
  have hA := J.low.le I hcA
  unfold testNbr at hlow ⊢
  split
  · next hc =>
    refine ⟨J.low, J.act, J.nar, J.nodup, J.src, J.xn, ?_, ?_⟩
    · intro i hi ho hp hs hit
      by_cases hin : i = n
      · subst hin
        exfalso
        rcases hc with hc | hc
        · rcases hs with hs | hs
          · exact hs hc
          · exact hnx hs
        · rw [SameMap.occ_eq J.low.map, ho] at hc; cases hc
      · exact J.conv1 i hi ho hp hs (by simp [hin, hit])
    · intro i hi ho hp hs hit
      exact J.conv2 i hi ho hp hs (by simp [hit])
  · next hc =>
    rw [if_neg hc] at hlow
    rw [not_or] at hc
    have ho' : s.g.occ n = false := by simpa using hc.2
    have hog : g.occ n = false := by rw [← SameMap.occ_eq J.low.map]; exact ho'
    obtain ⟨hgd, hap⟩ := I.eik J.low.map J.low.good hA hnN hog
    dsimp only at hlow ⊢
    split
    · next hb =>
      rw [if_pos hb] at hlow
      have hlt := DInput.accept hgd (J.low.good n) hb
      have hnp : n ∉ pts := by
        intro hp
        have h0 : toT (s.g.value n).1 = 0 := (J.src n hp).2
        have hlt' : toT (eikS s.g n).1.1 < toT (s.g.value n).1 := hlt
        rw [h0] at hlt'
        exact absurd hlt' (not_lt.2 hgd.toT_nonneg)
      have hna : ¬ Active s n := fun ha => hc.1 (J.act n ha).2.2
      set g2 := ((s.g.setScratch (eikS s.g n).2).setValue n (eikS s.g n).1).setState n .narrow with hg2
      have hst : ∀ k, g2.state k = if k = n then .narrow else s.g.state k := by
        intro k; simp [hg2, Grid.state_setState]
      have htv : ∀ k, k ≠ n → tf g2 k = tf s.g k := by
        intro k hk; rw [tf_eq, tf_eq]; simp [hg2, Grid.value_setValue, hk]
      have hmask : ∀ k, mask64 s.g k ≤ mask64 g2 k := by
        intro k
        unfold mask64
        rw [hst]
        by_cases hk : k = n
        · simp [hk]
        · rw [if_neg hk, htv k hk]
      have hmaskx : ∀ k, maskx64 x s.g k ≤ maskx64 x g2 k := by
        intro k
        unfold maskx64
        by_cases hk : k = x
        · rw [if_pos hk, if_pos hk, htv k (by rw [hk]; exact hnx.symm)]
        · rw [if_neg hk, if_neg hk]; exact hmask k
      refine ⟨hlow, ?_, ?_, ?_, ?_, ?_, ?_, ?_⟩
      · intro i hi
        show _ ∧ _ ∧ g2.state i = .narrow
        rw [hst]
        by_cases hin : i = n
        · subst hin; exact ⟨hnN, hog, by simp⟩
        · rw [if_neg hin]
          apply J.act
          rcases hi with hi | hi
          · simp only [List.mem_append, List.mem_singleton] at hi
            rcases hi with hi | hi
            · exact Or.inl hi
            · exact absurd hi hin
          · exact Or.inr hi
      · intro i hi hs
        have hs : g2.state i = .narrow := hs
        rw [hst] at hs
        by_cases hin : i = n
        · left; simp [hin]
        · rw [if_neg hin] at hs
          rcases J.nar i hi hs with h | h
          · left; simp [h]
          · exact Or.inr h
      · apply nodup_insert J.nodup
        unfold Active at hna
        tauto
      · intro i hi
        have hin : i ≠ n := by rintro rfl; exact hnp hi
        show g2.state i = .frozen ∧ tf g2 i = 0
        rw [hst, if_neg hin, htv i hin]
        exact J.src i hi
      · show g2.state x = .narrow
        rw [hst]; split
        · rfl
        · exact J.xn
      · intro i hi ho hp hs hit
        have hs : g2.state i ≠ .narrow ∨ i = x := hs
        have hin : i ≠ n := by
          rintro rfl
          rcases hs with hs | hs
          · exact hs (by rw [hst, if_pos rfl])
          · exact hnx hs
        rw [hst, if_neg hin] at hs
        refine Conv.mono I.X hi (le_refl _) ?_ (fun j _ => hmaskx j) (J.conv1 i hi ho hp hs (by simp [hin, hit]))
        show maskx64 x g2 i ≤ maskx64 x s.g i
        unfold maskx64 mask64
        rw [hst, if_neg hin, htv i hin]
      · intro i hi ho hp hs hit
        have hs : g2.state i ≠ .narrow := hs
        have hin : i ≠ n := by rintro rfl; exact hnt hit
        rw [hst, if_neg hin] at hs
        refine Conv.mono I.X hi (le_refl _) ?_ (fun j _ => hmask j) (J.conv2 i hi ho hp hs (by simp [hit]))
        show mask64 g2 i ≤ mask64 s.g i
        unfold mask64
        rw [hst, if_neg hin, htv i hin]
    · next hb =>
      rw [if_neg hb] at hlow
      have hb' : Arith.better (eikS s.g n).1 (s.g.value n) = false := by simpa using hb
      refine ⟨hlow, J.act, J.nar, J.nodup, J.src, J.xn, ?_, ?_⟩
      · intro i hi ho hp hs hit
        show I.X.Conv (maskx64 x s.g) _ i
        by_cases hin : i = n
        · subst hin
          refine Conv.mono I.X hi (by linarith : 2 * I.β ≤ 2 * I.β + e') ?_ (fun j _ => tf_le_maskx64 x s.g j)
            (conv_of_reject64 I J.low.map J.low.good hA hi ho hb')
          unfold maskx64 mask64
          rw [if_neg hnx, if_neg hc.1]
        · exact J.conv1 i hi ho hp hs (by simp [hin, hit])
      · intro i hi ho hp hs hit
        exact J.conv2 i hi ho hp hs (by simp [hit])

theorem AMid64.tests (I : DInput dims g h v pts cm cM A) {e' w : ℝ} (he : 0 ≤ e') (w0 : 0 ≤ w)
    (hw : ∀ i, i < dims.prod → g.occ i = false → h / v i + I.β ≤ w) {extra : Nat} (hwA : w * (extra + dims.prod) ≤ A)
    {x : Nat} (hxN : x < dims.prod) : ∀ (todo : List Nat) (s : St (F64 R)),
    (∀ n ∈ todo, n ∈ (Shape.mk' dims).nbrs x) → todo.Nodup → AMid64 I e' w extra x todo s →
    AMid64 I e' w extra x [] (todo.foldl (testNbr eikS) s) := by
  intro todo
  induction todo with
  | nil => intro s _ _ J; exact J
  | cons n ns ih =>
    intro s h1 h2 J
    rw [List.nodup_cons] at h2
    exact ih _ (fun m hm => h1 m (by simp [hm])) h2.2 (J.test I he w0 hw hwA hxN (h1 n (by simp)) h2.1)

/-- storing the recomputed time keeps the bounds -/
theorem write64 (I : DInput dims g h v pts cm cM A) {w : ℝ} (w0 : 0 ≤ w) (hw : ∀ i, i < dims.prod → g.occ i = false → h / v i + I.β ≤ w)
    {extra : Nat} {gs : Grid (F64 R)} (hcA : w * ((extra + (DInput.reached dims gs).card : Nat) : ℝ) ≤ A)
    (J : I.LInv w (extra + (DInput.reached dims gs).card) gs) {x : Nat} (hx : x < dims.prod) (ho : g.occ x = false) :
    I.LInv w (extra + 2 + (DInput.reached dims ((gs.setScratch (eikS gs x).2).setValue x (eikS gs x).1)).card)
        ((gs.setScratch (eikS gs x).2).setValue x (eikS gs x).1) := by
  obtain ⟨_, _, hbd, _⟩ := J.eik I hw hcA hx ho
  have hm : SameMap gs ((gs.setScratch (eikS gs x).2).setValue x (eikS gs x).1) := (sameMap_setScratch _ _).trans (sameMap_setValue _ _ _)
  have hv : ∀ k, ((gs.setScratch (eikS gs x).2).setValue x (eikS gs x).1).value k = if k = x then (eikS gs x).1 else gs.value k := by
    intro k; rw [Grid.value_setValue]; rfl
  have hcard : (DInput.reached dims gs).card ≤ (DInput.reached dims ((gs.setScratch (eikS gs x).2).setValue x (eikS gs x).1)).card + 1 := by
    have hsub : (DInput.reached dims gs).erase x ⊆ DInput.reached dims ((gs.setScratch (eikS gs x).2).setValue x (eikS gs x).1) := by
      intro k hk
      rw [Finset.mem_erase, DInput.mem_reached] at hk
      rw [DInput.mem_reached, tf_eq, hv, if_neg hk.1]; exact hk.2
    have h1 := Finset.card_le_card hsub
    have h2 := Finset.pred_card_le_card_erase (s := DInput.reached dims gs) (a := x)
    omega
  refine J.write I w0 hw (by omega) hcA hx ho hm hv ?_
  intro r hr
  obtain ⟨a, q, h1, h2, h3⟩ := hbd r hr
  have h4 := J.bnd a q h1
  have h5 : w * (((extra + (DInput.reached dims gs).card : Nat) : ℝ) + 1) ≤
      w * ((extra + 2 + (DInput.reached dims ((gs.setScratch (eikS gs x).2).setValue x (eikS gs x).1)).card : Nat) : ℝ) := by
    apply mul_le_mul_of_nonneg_left _ w0
    exact_mod_cast (by omega : extra + (DInput.reached dims gs).card + 1 ≤
      extra + 2 + (DInput.reached dims ((gs.setScratch (eikS gs x).2).setValue x (eikS gs x).1)).card)
  linarith

theorem AInv64.step (I : DInput dims g h v pts cm cM A) {e : ℝ} (he : 0 ≤ e) {E : F64 R} (hE : E.1 = .fin e) {w : ℝ} (w0 : 0 ≤ w)
    (hw : ∀ i, i < dims.prod → g.occ i = false → h / v i + I.β ≤ w) {extra : Nat} (hwA : w * ((extra + 2 : Nat) + dims.prod) ≤ A)
    {goal : Nat} {s t : St (F64 R)} (L : I.LInv w (extra + (DInput.reached dims s.g).card) s.g) (J : AInv64 I (e + 3 * A * uu) s)
    (hst : Step E goal eikS s t) : AInv64 I (e + 3 * A * uu) t := by
  have hcA : w * ((extra + (DInput.reached dims s.g).card : Nat) : ℝ) ≤ A := by
    refine le_trans (mul_le_mul_of_nonneg_left ?_ w0) hwA
    have := DInput.card_reached_le (dims := dims) s.g
    exact_mod_cast (by omega : extra + (DInput.reached dims s.g).card ≤ (extra + 2) + dims.prod)
  have hA := L.le I hcA
  have hA0 := I.Apos
  have hu0 := uu_pos
  have he' : 0 ≤ e + 3 * A * uu := by positivity
  obtain ⟨_, rfl⟩ := hst
  unfold next
  split
  · next x rest hs =>
    obtain ⟨hxN, hox, hxn⟩ := J.act x (Or.inr (by rw [hs]; simp))
    have hxp : x ∉ pts := by
      intro hp; rw [(J.src x hp).1] at hxn; cases hxn
    have hsh : s.g.shape = Shape.mk' dims := L.map.shape.trans I.X.shape
    obtain ⟨hgd, hap⟩ := I.eik L.map L.good hA hxN hox
    have hL1 := write64 I w0 hw hcA L hxN hox
    unfold visit
    dsimp only
    set g1 := (s.g.setScratch (eikS s.g x).2).setValue x (eikS s.g x).1 with hg1
    have hst1 : ∀ k, g1.state k = s.g.state k := by intro k; simp [hg1]
    have htv1 : ∀ k, k ≠ x → tf g1 k = tf s.g k := by
      intro k hk; rw [tf_eq, tf_eq]; simp [hg1, Grid.value_setValue, hk]
    have htvx : tf g1 x = toT (eikS s.g x).1.1 := by
      rw [tf_eq]; simp [hg1, Grid.value_setValue]
    have hmask1 : ∀ k, mask64 g1 k = mask64 s.g k := by
      intro k
      unfold mask64
      rw [hst1]
      by_cases hk : k = x
      · subst hk; rw [if_pos hxn, if_pos hxn]
      · rw [htv1 k hk]
    have hsrc1 : ∀ i ∈ pts, g1.state i = .frozen ∧ tf g1 i = 0 := by
      intro i hi
      have hix : i ≠ x := by rintro rfl; exact hxp hi
      rw [hst1, htv1 i hix]; exact J.src i hi
    have hndx : x ∉ s.before ∧ x ∉ rest ∧ (s.before ++ rest).Nodup := by
      have := J.nodup
      rw [hs] at this
      have hp : (s.before ++ x :: rest).Perm (x :: (s.before ++ rest)) := List.perm_middle
      rw [hp.nodup_iff, List.nodup_cons] at this
      simp only [List.mem_append, not_or] at this
      exact ⟨this.1.1, this.1.2, this.2⟩
    split
    · next hconv =>
      -- converged
      obtain ⟨a, b, ha, hb, hab⟩ := conv_test64 I hE (L.good x) hgd (fun r hr => hA x r hr) (I.eik_le hA hxN hox hap) hconv
      have hbv : tf g1 x = (b : WithTop ℝ) := by rw [htvx]; exact hb
      have M0 : AMid64 I (e + 3 * A * uu) w (extra + 2) x ((Shape.mk' dims).nbrs x) ({ s with g := g1 } : St (F64 R)) := by
        refine ⟨hL1, ?_, ?_, J.nodup, hsrc1, by show g1.state x = _; rw [hst1]; exact hxn, ?_, ?_⟩
        · intro i hi; show _ ∧ _ ∧ g1.state i = _; rw [hst1]; exact J.act i hi
        · intro i hi hn; have hn : g1.state i = .narrow := hn; rw [hst1] at hn; exact J.nar i hi hn
        · intro i hi ho hp hs' hit
          show I.X.Conv (maskx64 x g1) _ i
          have hs' : g1.state i ≠ .narrow ∨ i = x := hs'
          rw [hst1] at hs'
          by_cases hix : i = x
          · subst hix
            refine Conv.mono I.X hi (le_refl _) ?_ (fun j _ => tf_le_maskx64 i g1 j)
              (conv_of_close64 I hi he' (T := tf s.g) (T' := tf g1) ha hbv hab ?_ htv1)
            · unfold maskx64; rw [if_pos rfl]
            · rw [htvx]; exact hap
          · have hns : s.g.state i ≠ .narrow := by
              rcases hs' with h | h
              · exact h
              · exact absurd h hix
            refine Conv.mono I.X hi (le_refl _) ?_ ?_ (J.conv i hi ho hp hns)
            · unfold maskx64; rw [if_neg hix, hmask1]
            · intro j hj
              have hjx : j ≠ x := by
                rintro rfl
                exact hit (nbrs_symm I.X.fits hi hj)
              unfold maskx64; rw [if_neg hjx, hmask1]
        · intro i hi ho hp hs' hit
          have hs' : g1.state i ≠ .narrow := hs'
          rw [hst1] at hs'
          show I.X.Conv (mask64 g1) _ i
          rw [show mask64 g1 = mask64 s.g from funext hmask1]
          exact J.conv i hi ho hp hs'
      have hg1s : g1.shape = Shape.mk' dims := hL1.map.shape.trans I.X.shape
      have M := AMid64.tests I he' w0 hw hwA hxN ((Shape.mk' dims).nbrs x) _ (fun n hn => hn) (nbrs_nodup I.X.fits hxN) M0
      have haf := testNbrs_after (eikS) ((Shape.mk' dims).nbrs x) ({ s with g := g1 } : St (F64 R))
      rw [hg1s]
      set s2 := ((Shape.mk' dims).nbrs x).foldl (testNbr eikS) ({ s with g := g1 } : St (F64 R)) with hs2
      have haf1 : s2.after = x :: rest := haf.1.trans hs
      have hnd2 : x ∉ s2.before ∧ x ∉ rest ∧ (s2.before ++ rest).Nodup := by
        have := M.nodup
        rw [haf1] at this
        have hp : (s2.before ++ x :: rest).Perm (x :: (s2.before ++ rest)) := List.perm_middle
        rw [hp.nodup_iff, List.nodup_cons] at this
        simp only [List.mem_append, not_or] at this
        exact ⟨this.1.1, this.1.2, this.2⟩
      have hst2 : ∀ k, (s2.g.setState x .frozen).state k = if k = x then .frozen else s2.g.state k := by
        intro k; simp [Grid.state_setState]
      have htv2 : ∀ k, tf (s2.g.setState x .frozen) k = tf s2.g k := by intro k; rw [tf_eq, tf_eq]; simp
      have hmx : mask64 (s2.g.setState x .frozen) = maskx64 x s2.g := by
        funext k
        unfold maskx64 mask64
        rw [hst2, htv2]
        by_cases hk : k = x
        · simp [hk]
        · simp [hk]
      refine ⟨?_, ?_, hnd2.2.2, ?_, ?_⟩
      · intro i hi
        have hix : i ≠ x := by
          rintro rfl
          rcases hi with hi | hi
          · exact hnd2.1 hi
          · exact hnd2.2.1 hi
        show _ ∧ _ ∧ (s2.g.setState x .frozen).state i = _
        rw [hst2, if_neg hix]
        apply M.act
        rcases hi with hi | hi
        · exact Or.inl hi
        · right; rw [haf1]; exact List.mem_cons_of_mem _ hi
      · intro i hi hn
        have hn : (s2.g.setState x .frozen).state i = .narrow := hn
        rw [hst2] at hn
        by_cases hix : i = x
        · rw [if_pos hix] at hn; cases hn
        · rw [if_neg hix] at hn
          rcases M.nar i hi hn with h | h
          · exact Or.inl h
          · rw [haf1] at h
            rcases List.mem_cons.1 h with h | h
            · exact absurd h hix
            · exact Or.inr h
      · intro i hi
        have hix : i ≠ x := by rintro rfl; exact hxp hi
        show (s2.g.setState x .frozen).state i = _ ∧ tf (s2.g.setState x .frozen) i = 0
        rw [hst2, htv2, if_neg hix]
        exact M.src i hi
      · intro i hi ho hp hs'
        have hs' : (s2.g.setState x .frozen).state i ≠ .narrow := hs'
        show I.X.Conv (mask64 (s2.g.setState x .frozen)) _ i
        rw [hmx]
        apply M.conv1 i hi ho hp _ (by simp)
        rw [hst2] at hs'
        by_cases hix : i = x
        · exact Or.inr hix
        · rw [if_neg hix] at hs'; exact Or.inl hs'
    · -- not converged
      refine ⟨?_, ?_, ?_, hsrc1, ?_⟩
      · intro i hi
        show _ ∧ _ ∧ g1.state i = _
        rw [hst1]
        apply J.act
        rcases hi with hi | hi
        · simp only [List.mem_append, List.mem_singleton] at hi
          rcases hi with hi | rfl
          · exact Or.inl hi
          · right; rw [hs]; simp
        · right; rw [hs]; exact List.mem_cons_of_mem _ hi
      · intro i hi hn
        have hn : g1.state i = .narrow := hn
        rw [hst1] at hn
        rcases J.nar i hi hn with h | h
        · left; simp [h]
        · rw [hs] at h
          rcases List.mem_cons.1 h with rfl | h
          · left; simp
          · exact Or.inr h
      · exact nodup_insert hndx.2.2 ⟨hndx.1, hndx.2.1⟩
      · intro i hi ho hp hs'
        have hs' : g1.state i ≠ .narrow := hs'
        rw [hst1] at hs'
        show I.X.Conv (mask64 g1) _ i
        rw [show mask64 g1 = mask64 s.g from funext hmask1]
        exact J.conv i hi ho hp hs'
  · next hs =>
    refine ⟨?_, ?_, ?_, J.src, J.conv⟩
    · intro i hi
      apply J.act
      rcases hi with hi | hi
      · simp at hi
      · exact Or.inl hi
    · intro i hi hn
      rcases J.nar i hi hn with h | h
      · exact Or.inr h
      · rw [hs] at h; simp at h
    · have := J.nodup
      rw [hs] at this
      simpa using this

theorem AInv64.start (I : DInput dims g h v pts cm cM A) (hna : I.X.NonAdj) (hfr : Fresh g) {e' : ℝ} :
    AInv64 I e' (init g [] pts) := by
  obtain ⟨b1, b2, b3, b4, b5, b6, b7, b8, b9, b10⟩ := initPts_spec pts (g, []) (by simp) (by simp)
  have b11 := initPts_frozen pts (g, [])
  have e1 : (init g [] pts).g = (pts.foldl initPoint (g, [])).1 := rfl
  have e2 : (init g [] pts).before = (pts.foldl initPoint (g, [])).2 := rfl
  have e3 : (init g [] pts).after = [] := rfl
  have hno : ∀ k, g.state k = .opn := hfr.state
  have hlist : ∀ x, x ∈ (init g [] pts).before → x < dims.prod ∧ g.occ x = false ∧ x ∉ pts := by
    intro x hx
    rw [e2] at hx
    rcases b7 x hx with h | ⟨⟨p, hp, h⟩, ho⟩
    · simp at h
    · have h : x ∈ g.shape.nbrs p := h
      have hgs : g.shape = Shape.mk' dims := I.X.shape
      rw [hgs] at h
      have hpN := I.X.inside p hp
      have hxN := nbr_lt I.X.fits hpN h
      refine ⟨hxN, ho, ?_⟩
      intro hxp
      exact hna x hxp ho p (nbrs_symm I.X.fits hpN h) hp
  have hnar : ∀ x, (init g [] pts).g.state x = .narrow → x ∈ (init g [] pts).before := by
    intro x hx
    rw [e1] at hx
    rcases b6 x hx with h | h
    · have h : g.state x = .narrow := h
      rw [hno] at h; cases h
    · exact h
  have hfrz : ∀ x, (init g [] pts).g.state x = .frozen → x ∈ pts := by
    intro x hx
    rw [e1] at hx
    rcases b11 x hx with h | h
    · have h : g.state x = .frozen := h
      rw [hno] at h; cases h
    · exact h
  have hval : ∀ k, tf (init g [] pts).g k = if k ∈ pts then 0 else ⊤ := by
    intro k; rw [tf_eq, init_value, hfr.value]; split <;> rfl
  refine ⟨?_, ?_, ?_, ?_, ?_⟩
  · intro i hi
    rcases hi with hi | hi
    · obtain ⟨c1, c2, c3⟩ := hlist i hi
      refine ⟨c1, c2, ?_⟩
      have h1 := b10 i (by rw [← e2]; exact hi)
      rw [← e1] at h1
      cases hs : (init g [] pts).g.state i with
      | opn => exact absurd hs h1
      | narrow => rfl
      | frozen => exact absurd (hfrz i hs) c3
    · rw [e3] at hi; simp at hi
  · intro i _ hn; exact Or.inl (hnar i hn)
  · rw [e2, e3, List.append_nil]; exact b9
  · intro i hi
    refine ⟨?_, by rw [hval, if_pos hi]⟩
    have h1 := b3 i hi
    rw [← e1] at h1
    cases hs : (init g [] pts).g.state i with
    | opn => exact absurd hs h1
    | narrow => exact absurd hi (hlist i (hnar i hs)).2.2
    | frozen => rfl
  · intro i hi ho hp hs
    have hopn : (init g [] pts).g.state i = .opn := by
      cases hs' : (init g [] pts).g.state i with
      | opn => rfl
      | narrow => exact absurd hs' hs
      | frozen => exact absurd (hfrz i hs') hp
    apply I.X.conv_lonely hi ho
    intro j hj
    unfold mask64
    split
    · rfl
    · rw [hval, if_neg]
      intro hjp
      refine b5 i ho ⟨j, hjp, ?_⟩ hopn
      show i ∈ g.shape.nbrs j
      have hgs : g.shape = Shape.mk' dims := I.X.shape
      rw [hgs]; exact nbrs_symm I.X.fits hi hj

theorem AInv64.run (I : DInput dims g h v pts cm cM A) (hna : I.X.NonAdj) (hfr : Fresh g) {e : ℝ} (he : 0 ≤ e) {E : F64 R} (hE : E.1 = .fin e) {w : ℝ}
    (w0 : 0 ≤ w) (hw : ∀ i, i < dims.prod → g.occ i = false → h / v i + I.β ≤ w) {goal : Nat} : ∀ {n : Nat} {s : St (F64 R)},
    w * ((2 * n : Nat) + dims.prod) ≤ A → Steps (Step E goal eikS) n (init g [] pts) s → AInv64 I (e + 3 * A * uu) s := by
  intro n
  induction n with
  | zero => intro s _ hs; cases hs; exact AInv64.start I hna hfr
  | succ n ih =>
    intro s hA hs
    cases hs with
    | tail h1 h2 =>
      have hA' : w * ((2 * n + 2 : Nat) + dims.prod) ≤ A := hA
      have hA'' : w * ((2 * n : Nat) + dims.prod) ≤ A := le_trans (mul_le_mul_of_nonneg_left (by push_cast; linarith) w0) hA'
      exact (ih hA'' h1).step I he hE w0 hw hA' (I.fim_reach w0 hw hfr hA'' h1).2 h2

/-- `stop_false` in any arithmetic -/
theorem stop_false' {F : Type} [Arith F] {dims : List Nat} {g : Grid F} {pts : List Nat} (I : Input dims g pts) {E : F} {goal : Nat} (hgoal : dims.prod ≤ goal)
    {n : Nat} {s : St F} (hs : Steps (Step E goal eikS) n (init g [] pts) s) : s.stop = false := by
  have : s.stop = false ∧ LI dims s := by
    refine Steps.inv (I := fun s : St F => s.stop = false ∧ LI dims s) ?_ hs ⟨rfl, LI.start I⟩
    rintro a b ⟨h1, h2⟩ hst
    have P : PrimInv (F := F) eikS dims.prod (fun _ => True) := ⟨by simp, by simp, by simp⟩
    refine ⟨?_, (step_li I.fits P h2 trivial hst).1⟩
    obtain ⟨_, rfl⟩ := hst
    unfold next
    split
    · next x rest hx =>
      have hxN := (h2.act x (Or.inr (by rw [hx]; simp))).1
      unfold visit
      dsimp only
      split
      · dsimp only
        rw [if_neg (by omega), (testNbrs_after _ _ _).2]
        exact h1
      · exact h1
    · exact h1
  exact this.1
end FIM
end FMV
