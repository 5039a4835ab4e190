import Verif.Props.GMM
import Verif.Lemmas.FMMExact
import Verif.Lemmas.Terminate
import Verif.Props.WellPosed
/-!
# GMM terminates in exact arithmetic (C49)
-/
set_option linter.unusedSectionVars false
set_option linter.unusedVariables false
namespace FMV
open Spec Shape XR FMM
namespace GMM
variable {dims : List Nat} {g : Grid XR} {h : ℝ} {v : Nat → ℝ} {pts : List Nat}

theorem lt_good {a b : XR} (ha : GoodT a) (hb : GoodT b) : Arith.lt a b = true ↔ toT a < toT b := by
  rw [← ha.ofT_toT, ← hb.ofT_toT, lt_ofT]; simp

theorem le_fin_iff {a : XR} (ha : GoodT a) (m : ℝ) : Arith.le a (fin m) = true ↔ toT a ≤ (m : WithTop ℝ) := by
  rcases ha with rfl | ⟨r, _, rfl⟩
  · simp [Arith.le, XR.le]
  · simp [Arith.le, XR.le]

theorem lower_le (X : XInput dims g h v pts) {g' : Grid XR} (I : LowG X g') {j : Nat} (hj : j < dims.prod) (ho : g'.occ j = false) (k : Nat) :
    tv (lower eikS g' j) k ≤ tv g' k := by
  unfold lower
  dsimp only
  split
  · next hlt =>
    unfold tv
    rw [Grid.value_setValue]; split
    · next e =>
      subst e
      exact le_of_lt ((lt_good (X.eik_good I.map I.good hj (by rw [← SameMap.occ_eq I.map]; exact ho)) (I.good _)).1 hlt)
    · exact le_refl _
  · exact le_refl _

theorem lower_fin (X : XInput dims g h v pts) {g' : Grid XR} (I : LowG X g') {j x : Nat} (hj : j < dims.prod) (ho : g'.occ j = false)
    (hx : x ∈ (Shape.mk' dims).nbrs j) (hfx : tv g' x ≠ ⊤) : tv (lower eikS g' j) j ≠ ⊤ := by
  have ho' : g.occ j = false := by rw [← SameMap.occ_eq I.map]; exact ho
  have hE := X.eik_eq I.map I.good hj ho'
  by_cases hT : tv g' j = ⊤
  · obtain ⟨m, hm, hle⟩ := XInput.mins_le (T := tv g') hx
    have hne : upd (h / v j) (tv g' j) (mins (Shape.mk' dims) (tv g') j) ≠ ⊤ := by
      intro htop
      rcases (upd_eq_top_iff (X.cpos hj ho')).1 htop m hm with h1 | h1
      · rw [h1] at hle; exact hfx (top_le_iff.1 hle)
      · rw [hT] at h1; rw [top_le_iff.1 h1] at hle; exact hfx (top_le_iff.1 hle)
    have hlt : Arith.lt (eikS g' j).1 (g'.value j) = true := by
      rw [lt_good (X.eik_good I.map I.good hj ho') (I.good j), hE, toT_ofT]
      show _ < tv g' j
      exact lt_of_lt_of_eq (lt_top_iff_ne_top.2 hne) hT.symm
    unfold lower
    dsimp only
    rw [if_pos hlt]
    unfold tv
    rw [Grid.value_setValue, if_pos rfl, hE, toT_ofT]
    exact hne
  · exact ne_top_of_le_ne_top hT (lower_le X I hj ho j)

/-- what termination needs from a step: times never rise -/
def Le (g1 g2 : Grid XR) : Prop := ∀ k, tv g2 k ≤ tv g1 k

theorem Le.trans {a b c : Grid XR} (h1 : Le a b) (h2 : Le b c) : Le a c := fun k => le_trans (h2 k) (h1 k)

theorem relax1_le (X : XInput dims g h v pts) {g' : Grid XR} (I : LowG X g') {j : Nat} (hj : j < dims.prod) :
    Le g' (relax1 eikS g' j) := by
  unfold relax1; split
  · exact fun k => le_refl _
  · next hs => exact lower_le X I hj (skip_iff.1 hs).2.1

theorem relax1s_le (X : XInput dims g h v pts) : ∀ (ns : List Nat) (g' : Grid XR), LowG X g' → (∀ j ∈ ns, j < dims.prod) →
    Le g' (ns.foldl (relax1 eikS) g') := by
  intro ns
  induction ns with
  | nil => intro g' _ _ k; exact le_refl _
  | cons j js ih =>
    intro g' I hN
    rw [List.foldl_cons]
    exact (relax1_le X I (hN j (by simp))).trans
      (ih _ ((relax1_p1 eikS g' (hN j (by simp))).prim _ (LowG.prim X) I) (fun k hk => hN k (by simp [hk])))

theorem pass1_le (X : XInput dims g h v pts) (tm : XR) (gamma : List Nat) (g' : Grid XR) (I : LowG X g')
    (hg : ∀ x ∈ gamma, x < dims.prod) : Le g' (pass1 eikS tm gamma g') := by
  unfold pass1
  have : ∀ (l : List Nat) (g' : Grid XR), (∀ x ∈ l, x < dims.prod) → LowG X g' → Le g'
      (l.foldl (fun g x => if Arith.le (g.value x) tm then (g.shape.nbrs x).foldl (relax1 eikS) g else g) g') := by
    intro l
    induction l with
    | nil => intro g' _ _ k; exact le_refl _
    | cons x xs ih =>
      intro g' h1 I
      rw [List.foldl_cons]
      have hN : ∀ j ∈ g'.shape.nbrs x, j < dims.prod := by
        intro j hj
        rw [I.map.shape, X.shape] at hj
        exact nbr_lt X.fits (h1 x (by simp)) hj
      split
      · exact (relax1s_le X _ g' I hN).trans (ih _ (fun y hy => h1 y (by simp [hy]))
          ((relax1s_p1 eikS _ g' hN).prim _ (LowG.prim X) I))
      · exact ih _ (fun y hy => h1 y (by simp [hy])) I
  exact this _ g' (fun x hx => hg x (by simpa using hx)) I

/-- number of OPEN cells -/
def opens (N : Nat) (g : Grid XR) : Nat := (List.range N).countP (fun k => decide (g.state k = .opn))

theorem opens_congr {N : Nat} {a b : Grid XR} (hst : ∀ k, a.state k = b.state k) : opens N a = opens N b := by
  unfold opens
  apply List.countP_congr
  intro k _
  rw [hst]

theorem opens_set {N : Nat} {g : Grid XR} {j : Nat} (hj : j < N) {st : FMState} (hst : st ≠ .opn) :
    opens N (g.setState j st) + (if g.state j = .opn then 1 else 0) = opens N g := by
  unfold opens
  have key : ∀ l : List Nat, l.Nodup → l.countP (fun k => decide ((g.setState j st).state k = .opn)) +
      (if j ∈ l ∧ g.state j = .opn then 1 else 0) = l.countP (fun k => decide (g.state k = .opn)) := by
    intro l
    induction l with
    | nil => simp
    | cons a l ih =>
      intro hnd
      rw [List.nodup_cons] at hnd
      have := ih hnd.2
      rw [List.countP_cons, List.countP_cons]
      by_cases e : a = j
      · subst e
        simp only [hnd.1, false_and, if_false, add_zero] at this
        rw [this]
        simp [Grid.state_setState, hst]
      · have e' : ¬ j = a := fun h => e h.symm
        simp only [List.mem_cons, e', false_or, Grid.state_setState, e, if_false]
        rw [← this]
        simp only [Grid.state_setState]
        omega
  have := key (List.range N) List.nodup_range
  simpa [hj] using this

/-- invariant for termination -/
structure TInv (X : XInput dims g h v pts) (s : St XR) : Prop where
  ginv : GInv dims eikS g pts s
  low : LowG X s.g
  finite : ∀ x ∈ s.gamma, tv s.g x ≠ ⊤
  tm : s.gamma = [] ∨ ∃ m : ℝ, s.tm = fin m

theorem relax2_term (X : XInput dims g h v pts) {s : St XR} (I : LowG X s.g) {x j : Nat} (hj : j < dims.prod)
    (hxj : x ∈ (Shape.mk' dims).nbrs j) (hne : x ≠ j) (hx : tv s.g x ≠ ⊤) (hfin : ∀ y ∈ s.gamma, tv s.g y ≠ ⊤) :
    LowG X (relax2 eikS s j).g ∧ tv (relax2 eikS s j).g x ≠ ⊤ ∧ (∀ y ∈ (relax2 eikS s j).gamma, tv (relax2 eikS s j).g y ≠ ⊤) ∧
    opens dims.prod (relax2 eikS s j).g + (relax2 eikS s j).app.length ≤ opens dims.prod s.g + s.app.length := by
  obtain ⟨a1, a2, a3, a4, a5, a6, a7, a8, a9⟩ := relax2_spec eikS s hj
  have hgam : ∀ y, y ∈ (relax2 eikS s j).gamma → y ∈ s.gamma ∨ (y = j ∧ ¬ Skip s.g j) := by
    intro y
    rw [mem_gamma, mem_gamma, a6, a7, a5]
    tauto
  have hle : Le s.g (relax2 eikS s j).g := by
    unfold relax2; split
    · exact fun k => le_refl _
    · next hs =>
      dsimp only
      split
      · intro k
        unfold tv
        rw [Grid.value_setState]
        exact lower_le X I hj (skip_iff.1 hs).2.1 k
      · exact lower_le X I hj (skip_iff.1 hs).2.1
  refine ⟨a2 _ (LowG.prim X) I, ne_top_of_le_ne_top hx (hle x), ?_, ?_⟩
  · intro y hy
    rcases hgam y hy with hy | ⟨rfl, hns⟩
    · exact ne_top_of_le_ne_top (hfin y hy) (hle y)
    · have : tv (relax2 eikS s y).g y = tv (lower eikS s.g y) y := by
        unfold relax2
        rw [if_neg hns]
        dsimp only
        split
        · unfold tv; rw [Grid.value_setState]
        · rfl
      rw [this]
      exact lower_fin X I hj (skip_iff.1 hns).2.1 hxj hx
  · unfold relax2
    split
    · exact le_refl _
    · next hs =>
      dsimp only
      split
      · next ho =>
        have h1 := opens_set (N := dims.prod) (g := lower eikS s.g j) hj (st := .narrow) (by simp)
        rw [if_pos ho] at h1
        rw [← opens_congr (N := dims.prod) (a := lower eikS s.g j) (b := s.g) (lower_state eikS s.g j), ← h1]
        simp
        omega
      · exact le_of_eq (by rw [opens_congr (N := dims.prod) (a := lower eikS s.g j) (b := s.g) (lower_state eikS s.g j)])

theorem relax2s_term (X : XInput dims g h v pts) {x : Nat} : ∀ (ns : List Nat) (s : St XR), LowG X s.g → (∀ j ∈ ns, j < dims.prod ∧
    x ∈ (Shape.mk' dims).nbrs j ∧ x ≠ j) → tv s.g x ≠ ⊤ → (∀ y ∈ s.gamma, tv s.g y ≠ ⊤) →
    LowG X (ns.foldl (relax2 eikS) s).g ∧ (∀ y ∈ (ns.foldl (relax2 eikS) s).gamma, tv (ns.foldl (relax2 eikS) s).g y ≠ ⊤) ∧
    opens dims.prod (ns.foldl (relax2 eikS) s).g + (ns.foldl (relax2 eikS) s).app.length ≤ opens dims.prod s.g + s.app.length := by
  intro ns
  induction ns with
  | nil => intro s I _ _ hf; exact ⟨I, hf, le_refl _⟩
  | cons j js ih =>
    intro s I hN hx hf
    obtain ⟨p1, p2, p3⟩ := hN j (by simp)
    obtain ⟨b1, b2, b3, b4⟩ := relax2_term X I p1 p2 p3 hx hf
    obtain ⟨c1, c2, c3⟩ := ih _ b1 (fun k hk => hN k (by simp [hk])) b2 b3
    rw [List.foldl_cons]
    exact ⟨c1, c2, le_trans c3 b4⟩

/-- the quantity that drops whenever a cell is frozen -/
def size (N : Nat) (s : St XR) : Nat := opens N s.g + opens N s.g + s.gamma.length

theorem TInv.visit (X : XInput dims g h v pts) {s : St XR} (T : TInv X s) {goal : Nat} {dt : XR} {x : Nat} {rest : List Nat}
    (hr : s.rest = x :: rest) :
    TInv X (visit goal eikS s x rest) ∧ (visit goal eikS s x rest).tm = s.tm ∧ (visit goal eikS s x rest).rest = rest ∧
    (size dims.prod (visit goal eikS s x rest) < size dims.prod s ∨
      (visit goal eikS s x rest).g = s.g ∧ (visit goal eikS s x rest).gamma = s.gamma ∧ Arith.le (s.g.value x) s.tm = false ∧
        size dims.prod (visit goal eikS s x rest) = size dims.prod s) := by
  have hxg : x ∈ s.gamma := by rw [mem_gamma, hr]; simp
  have hxN : x < dims.prod := reach_lt (T.ginv.sound x hxg).1
  have hnd : ¬ Done s := by rintro ⟨h1, _⟩; rw [hr] at h1; cases h1
  have hst : Step dt goal eikS s (GMM.visit goal eikS s x rest) := ⟨hnd, by unfold next; rw [hr]⟩
  have G := (T.ginv.step X.input hst).1
  have hsh : s.g.shape = Shape.mk' dims := T.ginv.map.shape.trans X.shape
  by_cases hle : Arith.le (s.g.value x) s.tm = true
  · have hN : ∀ j ∈ s.g.shape.nbrs x, j < dims.prod ∧ x ∈ (Shape.mk' dims).nbrs j ∧ x ≠ j := by
      intro j hj
      rw [hsh] at hj
      refine ⟨nbr_lt X.fits hxN hj, (nbrs_symm X.fits hxN hj), ?_⟩
      rintro rfl
      exact nbrs_irrefl X.fits hxN hj
    obtain ⟨c1, c2, c3⟩ := relax2s_term X (s.g.shape.nbrs x) s T.low hN (T.finite x hxg) T.finite
    obtain ⟨_, _, _, _, _, d6, d7, d8, d9⟩ := relax2s_spec eikS (s.g.shape.nbrs x) s (fun j hj => (hN j hj).1)
    have e : GMM.visit goal eikS s x rest =
        { (s.g.shape.nbrs x).foldl (relax2 eikS) s with
          g := ((s.g.shape.nbrs x).foldl (relax2 eikS) s).g.setState x .frozen
          rest := rest
          stop := if x = goal then true else ((s.g.shape.nbrs x).foldl (relax2 eikS) s).stop } := by
      unfold GMM.visit; rw [if_pos hle]
    have hsub : ∀ y ∈ (GMM.visit goal eikS s x rest).gamma, y ∈ ((s.g.shape.nbrs x).foldl (relax2 eikS) s).gamma := by
      intro y hy
      rw [mem_gamma] at hy ⊢
      rw [e] at hy
      rw [d7, hr]
      dsimp only at hy
      rw [List.mem_cons]
      tauto
    have hlow : LowG X (GMM.visit goal eikS s x rest).g := by
      rw [e]; exact (LowG.prim X).state _ _ _ c1
    have htm : (GMM.visit goal eikS s x rest).tm = s.tm := by rw [e]; exact d8
    refine ⟨⟨G, hlow, ?_, ?_⟩, htm, by rw [e], Or.inl ?_⟩
    · intro y hy
      have := c2 y (hsub y hy)
      rw [e]
      unfold tv at this ⊢
      rw [Grid.value_setState]; exact this
    · right
      rw [htm]
      rcases T.tm with h0 | h0
      · rw [h0] at hxg; cases hxg
      · exact h0
    · have ho := opens_set (N := dims.prod) (g := ((s.g.shape.nbrs x).foldl (relax2 eikS) s).g) hxN (st := .frozen) (by simp)
      have eg : (GMM.visit goal eikS s x rest).g = ((s.g.shape.nbrs x).foldl (relax2 eikS) s).g.setState x .frozen := by rw [e]
      have el : (GMM.visit goal eikS s x rest).gamma.length + 1 = s.kept.length + s.rest.length +
          ((s.g.shape.nbrs x).foldl (relax2 eikS) s).app.length := by
        rw [e]; unfold St.gamma; dsimp only; rw [d6, hr]; simp; omega
      have el2 : s.gamma.length = s.kept.length + s.rest.length + s.app.length := by unfold St.gamma; simp; omega
      have hmono : opens dims.prod ((s.g.shape.nbrs x).foldl (relax2 eikS) s).g ≤ opens dims.prod s.g := by
        -- states only leave OPEN
        obtain ⟨_, _, _, q4, _⟩ := relax2s_spec eikS (s.g.shape.nbrs x) s (fun j hj => (hN j hj).1)
        unfold opens
        apply List.countP_mono_left
        intro k _ hk
        simp only [decide_eq_true_eq] at hk ⊢
        rw [q4] at hk
        split at hk
        · cases hk
        · exact hk
      unfold size
      rw [eg]
      omega
  · have e : GMM.visit goal eikS s x rest = { s with kept := s.kept ++ [x], rest := rest } := by
      unfold GMM.visit; rw [if_neg hle]
    have eg : (GMM.visit goal eikS s x rest).gamma = s.gamma := by
      rw [e]; unfold St.gamma; rw [hr]; simp
    have egg : (GMM.visit goal eikS s x rest).g = s.g := by rw [e]
    have et : (GMM.visit goal eikS s x rest).tm = s.tm := by rw [e]
    refine ⟨⟨G, by rw [egg]; exact T.low, by rw [eg, egg]; exact T.finite, by rw [eg, et]; exact T.tm⟩, et, by rw [e],
      Or.inr ⟨egg, eg, by simpa using hle, by unfold size; rw [eg, egg]⟩⟩

/-- one pass -/
theorem pass2 (X : XInput dims g h v pts) (goal : Nat) (dt : XR) : ∀ (rest : List Nat) (s : St XR), TInv X s → s.rest = rest →
    ∃ n t, Steps (Step dt goal eikS) n s t ∧ TInv X t ∧ t.rest = [] ∧
      (size dims.prod t < size dims.prod s ∨
        t.g = s.g ∧ t.gamma = s.gamma ∧ t.tm = s.tm ∧ size dims.prod t = size dims.prod s ∧
          ∀ x ∈ rest, Arith.le (s.g.value x) s.tm = false) := by
  intro rest
  induction rest with
  | nil => intro s T hr; exact ⟨0, s, .refl _, T, hr, Or.inr ⟨rfl, rfl, rfl, rfl, by simp⟩⟩
  | cons x rest ih =>
    intro s T hr
    obtain ⟨T', htm, hr', hcase⟩ := TInv.visit X T (goal := goal) (dt := dt) hr
    have hnd : ¬ Done s := by rintro ⟨h1, _⟩; rw [hr] at h1; cases h1
    have hst : Step dt goal eikS s (GMM.visit goal eikS s x rest) := ⟨hnd, by unfold next; rw [hr]⟩
    obtain ⟨n, t, hs, T'', hr'', hc⟩ := ih _ T' hr'
    refine ⟨n+1, t, Steps.head hst hs, T'', hr'', ?_⟩
    rcases hcase with h1 | ⟨h1, h2, h3, h4⟩
    · rcases hc with h5 | ⟨h5, h6, h7, h8, h9⟩
      · exact Or.inl (lt_trans h5 h1)
      · exact Or.inl (by rw [h8]; exact h1)
    · rcases hc with h5 | ⟨h5, h6, h7, h8, h9⟩
      · exact Or.inl (by rw [← h4]; exact h5)
      · refine Or.inr ⟨h5.trans h1, h6.trans h2, h7.trans htm, h8.trans h4, ?_⟩
        intro y hy
        rcases List.mem_cons.1 hy with rfl | hy
        · exact h3
        · have := h9 y hy; rw [h1, htm] at this; exact this

theorem TInv.begin (X : XInput dims g h v pts) {s : St XR} (T : TInv X s) {goal : Nat} {d : ℝ} (hr : s.rest = []) (hnd : ¬ Done s) :
    TInv X (begin (fin d) eikS s) ∧ Le s.g (begin (fin d) eikS s).g ∧ size dims.prod (begin (fin d) eikS s) = size dims.prod s := by
  have hst : Step (fin d) goal eikS s (GMM.begin (fin d) eikS s) := ⟨hnd, by unfold next; rw [hr]⟩
  obtain ⟨G, hp, _⟩ := T.ginv.step X.input hst
  have hlt : ∀ x ∈ s.gamma, x < dims.prod := fun x hx => reach_lt (T.ginv.sound x hx).1
  have hle : Le s.g (GMM.begin (fin d) eikS s).g := pass1_le X _ _ _ T.low hlt
  have hgam : (GMM.begin (fin d) eikS s).gamma = s.gamma := by unfold GMM.begin St.gamma; simp
  refine ⟨⟨G, hp _ (LowG.prim X) T.low, ?_, ?_⟩, hle, ?_⟩
  · intro x hx
    rw [hgam] at hx
    exact ne_top_of_le_ne_top (T.finite x hx) (hle x)
  · rw [hgam]
    rcases T.tm with h0 | ⟨m, hm⟩
    · exact Or.inl h0
    · right; exact ⟨m + d, by show Arith.add s.tm (fin d) = _; rw [hm]; rfl⟩
  · unfold size
    rw [hgam]
    have : opens dims.prod (GMM.begin (fin d) eikS s).g = opens dims.prod s.g := by
      apply opens_congr
      exact (pass1_p1 eikS X.fits (Arith.add s.tm (fin d)) s.gamma s.g (T.ginv.map.shape.trans X.shape) hlt).state
    rw [this]

/-- termination from a state at the end of a pass -/
theorem TInv.terminates (X : XInput dims g h v pts) (goal : Nat) {d : ℝ} (hd : 0 < d) : ∀ (a c : Nat) (s : St XR), TInv X s → s.rest = [] →
    size dims.prod s = a → (s.gamma ≠ [] → ∃ x m, x ∈ s.gamma ∧ s.tm = fin m ∧ tv s.g x ≤ ((m + c * d : ℝ) : WithTop ℝ)) →
    ∃ n t, Steps (Step (fin d) goal eikS) n s t ∧ Done t := by
  intro a
  induction a using Nat.strong_induction_on with
  | _ a iha =>
    intro c
    induction c with
    | zero =>
      intro s T hr ha hc
      by_cases hdone : Done s
      · exact ⟨0, s, .refl _, hdone⟩
      have hne : s.gamma ≠ [] := fun e => hdone ⟨hr, Or.inr e⟩
      obtain ⟨x, m, hx, hm, hle⟩ := hc hne
      obtain ⟨T', hle', hsz⟩ := TInv.begin X T (goal := goal) (d := d) hr hdone
      have hst : Step (fin d) goal eikS s (GMM.begin (fin d) eikS s) := ⟨hdone, by unfold next; rw [hr]⟩
      obtain ⟨n, t, hs, T'', hr'', hcase⟩ := pass2 X goal (fin d) _ _ T' rfl
      have hlt : size dims.prod t < a := by
        rcases hcase with h1 | ⟨_, _, _, _, h5⟩
        · rw [← ha, ← hsz]; exact h1
        · exfalso
          have h6 := h5 x hx
          have hle2 := le_trans (hle' x) hle
          have htm : (GMM.begin (fin d) eikS s).tm = fin (m + d) := by
            show Arith.add s.tm (fin d) = _; rw [hm]; rfl
          have h7 : Arith.le ((GMM.begin (fin d) eikS s).g.value x) (GMM.begin (fin d) eikS s).tm = true := by
            rw [htm, le_fin_iff (T'.low.good x)]
            refine le_trans hle2 ?_
            have : m + (0:ℕ) * d ≤ m + d := by simp; linarith
            exact_mod_cast this
          rw [h7] at h6; cases h6
      by_cases hne2 : t.gamma = []
      · exact ⟨n+1, t, Steps.head hst hs, hr'', Or.inr hne2⟩
      · obtain ⟨y, hy⟩ := List.exists_mem_of_ne_nil _ hne2
        obtain ⟨m', hm'⟩ := T''.tm.resolve_left hne2
        obtain ⟨r, hr2⟩ := WithTop.ne_top_iff_exists.1 (T''.finite y hy)
        obtain ⟨k, hk⟩ := exists_nat_ge ((r - m') / d)
        obtain ⟨n2, t2, hs2, hd2⟩ := iha _ hlt k t T'' hr'' rfl (fun _ => ⟨y, m', hy, hm', by
          rw [← hr2]
          have : r ≤ m' + k * d := by
            rw [div_le_iff₀ hd] at hk; linarith
          exact_mod_cast this⟩)
        exact ⟨_, t2, Steps.append (Steps.head hst hs) hs2, hd2⟩
    | succ c ihc =>
      intro s T hr ha hc
      by_cases hdone : Done s
      · exact ⟨0, s, .refl _, hdone⟩
      have hne : s.gamma ≠ [] := fun e => hdone ⟨hr, Or.inr e⟩
      obtain ⟨x, m, hx, hm, hle⟩ := hc hne
      obtain ⟨T', hle', hsz⟩ := TInv.begin X T (goal := goal) (d := d) hr hdone
      have hst : Step (fin d) goal eikS s (GMM.begin (fin d) eikS s) := ⟨hdone, by unfold next; rw [hr]⟩
      have htm : (GMM.begin (fin d) eikS s).tm = fin (m + d) := by
        show Arith.add s.tm (fin d) = _; rw [hm]; rfl
      obtain ⟨n, t, hs, T'', hr'', hcase⟩ := pass2 X goal (fin d) _ _ T' rfl
      rcases hcase with h1 | ⟨h1, h2, h3, h4, h5⟩
      · have hlt : size dims.prod t < a := by rw [← ha, ← hsz]; exact h1
        by_cases hne2 : t.gamma = []
        · exact ⟨n+1, t, Steps.head hst hs, hr'', Or.inr hne2⟩
        · obtain ⟨y, hy⟩ := List.exists_mem_of_ne_nil _ hne2
          obtain ⟨m', hm'⟩ := T''.tm.resolve_left hne2
          obtain ⟨r, hr2⟩ := WithTop.ne_top_iff_exists.1 (T''.finite y hy)
          obtain ⟨k, hk⟩ := exists_nat_ge ((r - m') / d)
          obtain ⟨n2, t2, hs2, hd2⟩ := iha _ hlt k t T'' hr'' rfl (fun _ => ⟨y, m', hy, hm', by
            rw [← hr2]
            have : r ≤ m' + k * d := by
              rw [div_le_iff₀ hd] at hk; linarith
            exact_mod_cast this⟩)
          exact ⟨_, t2, Steps.append (Steps.head hst hs) hs2, hd2⟩
      · have hgam : (GMM.begin (fin d) eikS s).gamma = s.gamma := by unfold GMM.begin St.gamma; simp
        obtain ⟨n2, t2, hs2, hd2⟩ := ihc t T'' hr'' (by rw [h4, hsz, ha]) (fun _ => ⟨x, m + d, by rw [h2, hgam]; exact hx, by rw [h3, htm], by
          rw [h1]
          refine le_trans (le_trans (hle' x) hle) ?_
          have : m + ((c+1 : ℕ) : ℝ) * d ≤ m + d + c * d := by push_cast; linarith
          exact_mod_cast this⟩)
        exact ⟨_, t2, Steps.append (Steps.head hst hs) hs2, hd2⟩

/-! ### the initial state -/

structure I0 (X : XInput dims g h v pts) (s : Grid XR × List Nat × XR) : Prop where
  low : LowG X s.1
  fin : ∀ x ∈ s.2.1, tv s.1 x ≠ ⊤
  pos : ∀ k, s.1.state k ≠ .frozen → 0 < tv s.1 k
  tm : (s.2.2 = pinf ∧ s.2.1 = []) ∨ ∃ m : ℝ, 0 ≤ m ∧ s.2.2 = XR.fin m

theorem I0.nbr (X : XInput dims g h v pts) {s : Grid XR × List Nat × XR} (I : I0 X s) {p j : Nat} (hj : j < dims.prod)
    (hp : p ∈ (Shape.mk' dims).nbrs j) (hne : p ≠ j) (hz : tv s.1 p = 0) :
    I0 X (initNbr eikS s j) ∧ tv (initNbr eikS s j).1 p = 0 := by
  unfold initNbr
  split
  · exact ⟨I, hz⟩
  · next hs =>
    have hf : s.1.state j ≠ .frozen := fun e => hs (Or.inl e)
    have ho : s.1.occ j = false := by
      cases e : s.1.occ j with
      | false => rfl
      | true => exact absurd (Or.inr e) hs
    have ho' : g.occ j = false := by rw [← SameMap.occ_eq I.low.map]; exact ho
    have hE := X.eik_eq I.low.map I.low.good hj ho'
    obtain ⟨m, hm, hle⟩ := XInput.mins_le (T := tv s.1) hp
    have hnn : ∀ m ∈ mins (Shape.mk' dims) (tv s.1) j, 0 ≤ m := XInput.mins_nn (fun k => (I.low.good k).toT_nonneg) j
    have hne' : upd (h / v j) (tv s.1 j) (mins (Shape.mk' dims) (tv s.1) j) ≠ ⊤ := by
      intro htop
      rw [hz] at hle
      rcases (upd_eq_top_iff (X.cpos hj ho')).1 htop m hm with h1 | h1
      · rw [h1] at hle; simp at hle
      · exact absurd (lt_of_lt_of_le (I.pos j hf) (le_trans h1 hle)) (lt_irrefl _)
    have hpos := XInput.upd_pos (X.cpos hj ho') (Ti := tv s.1 j) hnn
    obtain ⟨u, hu⟩ := WithTop.ne_top_iff_exists.1 hne'
    rw [← hu] at hE hpos hne'
    have hE' : (eikS s.1 j).1 = XR.fin u := hE
    have hu0 : 0 < u := by exact_mod_cast hpos
    refine ⟨⟨(LowG.prim X).state _ _ _ ((LowG.prim X).write _ _ I.low hj ho), ?_, ?_, ?_⟩, ?_⟩
    · intro x hx
      unfold tv
      simp only [Grid.value_setState, Grid.value_setValue]
      split
      · rw [hE']; simp
      · next e =>
        rcases List.mem_append.1 hx with hx | hx
        · exact I.fin x hx
        · exact absurd (by simpa using hx) e
    · intro k hk
      unfold tv
      simp only [Grid.state_setState, Grid.value_setState, Grid.value_setValue] at hk ⊢
      split
      · rw [hE']; exact hpos
      · next e =>
        rw [if_neg e] at hk
        exact I.pos k (by simpa using hk)
    · right
      dsimp only
      rw [hE']
      rcases I.tm with ⟨h1, _⟩ | ⟨m, hm0, hm1⟩
      · rw [h1]; exact ⟨u, hu0.le, by simp [Arith.lt, XR.lt]⟩
      · rw [hm1]; split
        · exact ⟨u, hu0.le, rfl⟩
        · exact ⟨m, hm0, rfl⟩
    · unfold tv
      simp only [Grid.value_setState, Grid.value_setValue]
      rw [if_neg hne]; exact hz

theorem I0.nbrs (X : XInput dims g h v pts) {p : Nat} : ∀ (ns : List Nat) (s : Grid XR × List Nat × XR),
    (∀ j ∈ ns, j < dims.prod ∧ p ∈ (Shape.mk' dims).nbrs j ∧ p ≠ j) → I0 X s → tv s.1 p = 0 → I0 X (ns.foldl (initNbr eikS) s) := by
  intro ns
  induction ns with
  | nil => intro s _ I _; exact I
  | cons j js ih =>
    intro s hN I hz
    obtain ⟨p1, p2, p3⟩ := hN j (by simp)
    obtain ⟨I', hz'⟩ := I.nbr X p1 p2 p3 hz
    rw [List.foldl_cons]
    exact ih _ (fun k hk => hN k (by simp [hk])) I' hz'

theorem I0.points (X : XInput dims g h v pts) : ∀ (ps : List Nat) (s : Grid XR × List Nat × XR), (∀ p ∈ ps, p ∈ pts) → I0 X s →
    I0 X (ps.foldl (initPoint eikS) s) := by
  intro ps
  induction ps with
  | nil => intro s _ I; exact I
  | cons p ps ih =>
    intro s hps I
    rw [List.foldl_cons]
    refine ih _ (fun q hq => hps q (by simp [hq])) ?_
    have hp := hps p (by simp)
    have hpN := X.inside p hp
    have hsh : s.1.shape = Shape.mk' dims := I.low.map.shape.trans X.shape
    unfold initPoint
    rw [hsh]
    apply I0.nbrs X (p := p)
    · intro j hj
      refine ⟨nbr_lt X.fits hpN hj, nbrs_symm X.fits hpN hj, ?_⟩
      rintro rfl
      exact nbrs_irrefl X.fits hpN hj
    · refine ⟨(LowG.prim X).state _ _ _ (lowG_zero X _ p hp I.low), ?_, ?_, I.tm⟩
      · intro x hx
        unfold tv
        simp only [Grid.value_setState, Grid.value_setValue]
        split
        · simp [Arith.zero]
        · exact I.fin x hx
      · intro k hk
        unfold tv
        simp only [Grid.state_setState, Grid.state_setValue, Grid.value_setState, Grid.value_setValue] at hk ⊢
        by_cases e : k = p
        · rw [if_pos e] at hk; exact absurd rfl hk
        · rw [if_neg e] at hk ⊢; exact I.pos k hk
    · unfold tv; simp [Grid.value_setValue, Arith.zero]

theorem TInv.start (X : XInput dims g h v pts) (hfr : Fresh g) : TInv X (init eikS g [] pts) := by
  have I : I0 X (pts.foldl (initPoint eikS) (g, [], Arith.inf)) := by
    apply I0.points X _ _ (fun p hp => hp)
    refine ⟨lowG_fresh X hfr, by simp, ?_, Or.inl ⟨rfl, rfl⟩⟩
    intro k _
    show 0 < tv g k
    unfold tv; rw [hfr.value]; exact WithTop.top_pos
  have hgam : (init eikS g [] pts).gamma = (pts.foldl (initPoint eikS) (g, [], Arith.inf)).2.1 := by
    unfold init St.gamma; simp
  refine ⟨GInv.start eikS X.input hfr.state, I.low, by rw [hgam]; exact I.fin, ?_⟩
  rw [hgam]
  rcases I.tm with ⟨_, h2⟩ | ⟨m, _, h2⟩
  · exact Or.inl h2
  · exact Or.inr ⟨m, h2⟩

/-- **C49**: GMM stops on every map and every goal, in exact arithmetic, for every positive time step. -/
theorem _root_.FMV.C49_GMM_terminates (X : XInput dims g h v pts) (hfr : Fresh g) (goal : Nat) (d : ℝ) (hd : 0 < d) :
    ∃ n s, Steps (Step (fin d) goal eikS) n (init eikS g [] pts) s ∧ Done s := by
  have T := TInv.start X hfr
  by_cases hne : (init eikS g [] pts).gamma = []
  · exact ⟨0, _, .refl _, rfl, Or.inr hne⟩
  · obtain ⟨y, hy⟩ := List.exists_mem_of_ne_nil _ hne
    obtain ⟨m', hm'⟩ := T.tm.resolve_left hne
    obtain ⟨r, hr2⟩ := WithTop.ne_top_iff_exists.1 (T.finite y hy)
    obtain ⟨k, hk⟩ := exists_nat_ge ((r - m') / d)
    exact TInv.terminates X goal hd _ k _ T rfl rfl (fun _ => ⟨y, m', hy, hm', by
      rw [← hr2]
      have : r ≤ m' + k * d := by
        rw [div_le_iff₀ hd] at hk; linarith
      exact_mod_cast this⟩)

/-- Without a goal every run of GMM ends, after finitely many steps, with exactly the reachable cells FROZEN. -/
theorem _root_.FMV.C49_GMM_total (X : XInput dims g h v pts) (hfr : Fresh g) (goal : Nat) (hgoal : dims.prod ≤ goal) (d : ℝ) (hd : 0 < d) :
    ∃ n s, Steps (Step (fin d) goal eikS) n (init eikS g [] pts) s ∧ Done s ∧ ∀ i, s.g.state i = .frozen ↔ reach dims g pts i := by
  obtain ⟨n, s, hs, hdn⟩ := C49_GMM_terminates X hfr goal d hd
  exact ⟨n, s, hs, hdn, C49_GMM_frozen_iff_reachable _ goal _ dims g pts X.input hfr.state (zeroOcc_xr g) n s hs
    (C49_GMM_no_goal_ends_empty _ goal _ dims g pts X.input hfr.state hgoal n s hs hdn)⟩

/-! ### a zero time step -/

/-- `tm_` is at most every time given to a cell of the list -/
structure Z0 (X : XInput dims g h v pts) (s : Grid XR × List Nat × XR) : Prop extends I0 X s where
  frz : ∀ k, s.1.state k = .frozen → k ∈ pts
  nar : ∀ k, s.1.state k ≠ .frozen → s.1.value k ≠ pinf → toT s.2.2 ≤ tv s.1 k

theorem Z0.nbr (X : XInput dims g h v pts) {s : Grid XR × List Nat × XR} (Z : Z0 X s) {p j : Nat} (hj : j < dims.prod)
    (hp : p ∈ (Shape.mk' dims).nbrs j) (hne : p ≠ j) (hz : tv s.1 p = 0) :
    Z0 X (initNbr eikS s j) ∧ tv (initNbr eikS s j).1 p = 0 ∧ toT (initNbr eikS s j).2.2 ≤ toT s.2.2 ∧
    (j ∉ pts → g.occ j = false → toT (initNbr eikS s j).2.2 ≤ ((h / v j + eps : ℝ) : WithTop ℝ)) := by
  obtain ⟨I', hz'⟩ := Z.toI0.nbr X hj hp hne hz
  have hgood : GoodT s.2.2 := by
    rcases Z.tm with ⟨h1, _⟩ | ⟨m, hm, h1⟩
    · exact Or.inl h1
    · exact Or.inr ⟨m, hm, h1⟩
  obtain ⟨a1, a2, a3, a4, a5⟩ := initNbr_spec eikS s hj
  have hfr' : ∀ k, (initNbr eikS s j).1.state k = .frozen → s.1.state k = .frozen := by
    intro k hk
    rw [a4] at hk
    split at hk
    · cases hk
    · exact hk
  by_cases hs : s.1.state j = .frozen ∨ s.1.occ j = true
  · have e : initNbr eikS s j = s := by unfold initNbr; rw [if_pos hs]
    rw [e]
    refine ⟨Z, hz, le_refl _, ?_⟩
    intro h1 h2
    rcases hs with h3 | h3
    · exact absurd (Z.frz j h3) h1
    · rw [SameMap.occ_eq Z.low.map, h2] at h3; cases h3
  · have hf : s.1.state j ≠ .frozen := fun e => hs (Or.inl e)
    have ho : s.1.occ j = false := by
      cases e : s.1.occ j with
      | false => rfl
      | true => exact absurd (Or.inr e) hs
    have ho' : g.occ j = false := by rw [← SameMap.occ_eq Z.low.map]; exact ho
    have hE := X.eik_eq Z.low.map Z.low.good hj ho'
    have hgd := X.eik_good Z.low.map Z.low.good hj ho'
    have e2 : (initNbr eikS s j).2.2 = if Arith.lt (eikS s.1 j).1 s.2.2 then (eikS s.1 j).1 else s.2.2 := by
      unfold initNbr; rw [if_neg hs]
    have ev : ∀ k, (initNbr eikS s j).1.value k = if k = j then (eikS s.1 j).1 else s.1.value k := by
      intro k
      unfold initNbr; rw [if_neg hs]
      simp only [Grid.value_setState, Grid.value_setValue]
      rfl
    have hmin : toT (initNbr eikS s j).2.2 ≤ toT s.2.2 ∧ toT (initNbr eikS s j).2.2 ≤ toT (eikS s.1 j).1 := by
      rw [e2]
      split
      · next hlt => exact ⟨le_of_lt ((lt_good hgd hgood).1 hlt), le_refl _⟩
      · next hlt => exact ⟨le_refl _, not_lt.1 (fun h0 => hlt ((lt_good hgd hgood).2 h0))⟩
    refine ⟨⟨I', fun k hk => Z.frz k (hfr' k hk), ?_⟩, hz', hmin.1, ?_⟩
    · intro k hk hp
      unfold tv
      rw [ev] at hp ⊢
      by_cases ekj : k = j
      · rw [if_pos ekj]; exact hmin.2
      · rw [if_neg ekj] at hp ⊢
        rw [a4, if_neg (fun c => ekj c.1)] at hk
        exact le_trans hmin.1 (Z.nar k hk hp)
    · intro _ _
      by_cases hc : (((h / v j : ℝ)) : WithTop ℝ) < tv s.1 j
      · obtain ⟨m, hm, hle⟩ := XInput.mins_le (T := tv s.1) hp
        rw [hz] at hle
        have hnn : ∀ m ∈ mins (Shape.mk' dims) (tv s.1) j, 0 ≤ m := XInput.mins_nn (fun k => (Z.low.good k).toT_nonneg) j
        have hm0 : m = 0 := le_antisymm hle (hnn m hm)
        have hres : (h / v j)^2 ≤ residL (h / v j) (mins (Shape.mk' dims) (tv s.1) j) := by
          refine le_trans ?_ (posSq_le_residL hm)
          rw [hm0]
          have : posSq (h / v j) (0 : WithTop ℝ) = (max (h / v j - 0) 0)^2 := rfl
          rw [this, sub_zero, max_eq_left (X.cpos hj ho').le]
        obtain ⟨u, hu, hule⟩ := upd_upper (X.cpos hj ho') hc hres
        refine le_trans hmin.2 ?_
        rw [hE, toT_ofT, hu]
        exact_mod_cast hule
      · have hne : s.1.value j ≠ pinf := by
          intro e
          apply hc
          unfold tv; rw [e]; exact WithTop.coe_lt_top _
        refine le_trans hmin.1 (le_trans (Z.nar j hf hne) (le_trans (not_lt.1 hc) ?_))
        have : h / v j ≤ h / v j + eps := by linarith [eps_pos]
        exact_mod_cast this

theorem Z0.nbrs (X : XInput dims g h v pts) {p : Nat} : ∀ (ns : List Nat) (s : Grid XR × List Nat × XR),
    (∀ j ∈ ns, j < dims.prod ∧ p ∈ (Shape.mk' dims).nbrs j ∧ p ≠ j) → Z0 X s → tv s.1 p = 0 → Z0 X (ns.foldl (initNbr eikS) s) ∧
    toT (ns.foldl (initNbr eikS) s).2.2 ≤ toT s.2.2 ∧
    (∀ j ∈ ns, j ∉ pts → g.occ j = false → toT (ns.foldl (initNbr eikS) s).2.2 ≤ ((h / v j + eps : ℝ) : WithTop ℝ)) := by
  intro ns
  induction ns with
  | nil => intro s _ I _; exact ⟨I, le_refl _, by simp⟩
  | cons j js ih =>
    intro s hN I hz
    obtain ⟨p1, p2, p3⟩ := hN j (by simp)
    obtain ⟨I', hz', hle, hj⟩ := I.nbr X p1 p2 p3 hz
    rw [List.foldl_cons]
    obtain ⟨c1, c2, c3⟩ := ih _ (fun k hk => hN k (by simp [hk])) I' hz'
    refine ⟨c1, le_trans c2 hle, ?_⟩
    intro k hk h1 h2
    rcases List.mem_cons.1 hk with rfl | hk
    · exact le_trans c2 (hj h1 h2)
    · exact c3 k hk h1 h2

theorem Z0.points (X : XInput dims g h v pts) : ∀ (ps : List Nat) (s : Grid XR × List Nat × XR), (∀ p ∈ ps, p ∈ pts) → Z0 X s →
    Z0 X (ps.foldl (initPoint eikS) s) ∧ toT (ps.foldl (initPoint eikS) s).2.2 ≤ toT s.2.2 ∧
    (∀ p ∈ ps, ∀ j ∈ (Shape.mk' dims).nbrs p, j ∉ pts → g.occ j = false →
      toT (ps.foldl (initPoint eikS) s).2.2 ≤ ((h / v j + eps : ℝ) : WithTop ℝ)) := by
  intro ps
  induction ps with
  | nil => intro s _ I; exact ⟨I, le_refl _, by simp⟩
  | cons p ps ih =>
    intro s hps I
    rw [List.foldl_cons]
    have hp := hps p (by simp)
    have hpN := X.inside p hp
    have hsh : s.1.shape = Shape.mk' dims := I.low.map.shape.trans X.shape
    have key : Z0 X (initPoint eikS s p) ∧ toT (initPoint eikS s p).2.2 ≤ toT s.2.2 ∧
        (∀ j ∈ (Shape.mk' dims).nbrs p, j ∉ pts → g.occ j = false → toT (initPoint eikS s p).2.2 ≤ ((h / v j + eps : ℝ) : WithTop ℝ)) := by
      unfold initPoint
      rw [hsh]
      apply Z0.nbrs X (p := p)
      · intro j hj
        refine ⟨nbr_lt X.fits hpN hj, nbrs_symm X.fits hpN hj, ?_⟩
        rintro rfl
        exact nbrs_irrefl X.fits hpN hj
      · refine ⟨⟨(LowG.prim X).state _ _ _ (lowG_zero X _ p hp I.low), ?_, ?_, I.tm⟩, ?_, ?_⟩
        · intro x hx
          unfold tv
          simp only [Grid.value_setState, Grid.value_setValue]
          split
          · simp [Arith.zero]
          · exact I.fin x hx
        · intro k hk
          unfold tv
          simp only [Grid.state_setState, Grid.state_setValue, Grid.value_setState, Grid.value_setValue] at hk ⊢
          by_cases e : k = p
          · rw [if_pos e] at hk; exact absurd rfl hk
          · rw [if_neg e] at hk ⊢; exact I.pos k hk
        · intro k hk
          simp only [Grid.state_setState, Grid.state_setValue] at hk
          by_cases e : k = p
          · rw [e]; exact hp
          · rw [if_neg e] at hk; exact I.frz k hk
        · intro k hk hv
          unfold tv
          simp only [Grid.state_setState, Grid.state_setValue, Grid.value_setState, Grid.value_setValue] at hk hv ⊢
          by_cases e : k = p
          · rw [if_pos e] at hk; exact absurd rfl hk
          · rw [if_neg e] at hk hv ⊢; exact I.nar k hk hv
      · unfold tv; simp [Grid.value_setValue, Arith.zero]
    obtain ⟨k1, k2, k3⟩ := key
    obtain ⟨c1, c2, c3⟩ := ih _ (fun q hq => hps q (by simp [hq])) k1
    refine ⟨c1, le_trans c2 k2, ?_⟩
    intro q hq j hj h1 h2
    rcases List.mem_cons.1 hq with rfl | hq
    · exact le_trans c2 (k3 j hj h1 h2)
    · exact c3 q hq j hj h1 h2

theorem Z0.start (X : XInput dims g h v pts) (hfr : Fresh g) : Z0 X (g, [], Arith.inf) := by
  refine ⟨⟨lowG_fresh X hfr, by simp, ?_, Or.inl ⟨rfl, rfl⟩⟩, ?_, ?_⟩
  · intro k _
    show 0 < tv g k
    unfold tv; rw [hfr.value]; exact WithTop.top_pos
  · intro k hk
    have hk : g.state k = _ := hk
    rw [hfr.state] at hk; cases hk
  · intro k _ hk
    exact absurd (hfr.value k) hk

/-- **Finding** (C49): with a time step of 0, which the constructor accepts, GMM without goal never stops on any problem in which some
reachable cell lies later than the first ring of cells around a starting point. -/
theorem _root_.FMV.C49_GMM_zero_step_never_ends (X : XInput dims g h v pts) (hfr : Fresh g) (U : Nat → WithTop ℝ)
    (hU : X.problem.IsSolution U) (goal : Nat) (hgoal : dims.prod ≤ goal) (p j i : Nat) (hp : p ∈ pts)
    (hj : j ∈ (Shape.mk' dims).nbrs p) (hjp : j ∉ pts) (hjo : g.occ j = false)
    (hi : reach dims g pts i) (hlate : ((h / v j + eps : ℝ) : WithTop ℝ) < U i)
    (n : Nat) (s : St XR) (hs : Steps (Step (fin 0) goal eikS) n (init eikS g [] pts) s) : ¬ Done s := by
  intro hdone
  obtain ⟨z1, _, z3⟩ := Z0.points X pts _ (fun p hp => hp) (Z0.start X hfr)
  have htm0 := z3 p hp j hj hjp hjo
  have hI := init_inv eikS X.input hfr.state
  obtain ⟨m, hm0, hm⟩ : ∃ m : ℝ, 0 ≤ m ∧ (init eikS g [] pts).tm = fin m := by
    rcases z1.tm with ⟨h1, _⟩ | h1
    · rw [h1] at htm0; simp at htm0
    · exact h1
  have hmle : (m : WithTop ℝ) ≤ ((h / v j + eps : ℝ) : WithTop ℝ) := by
    have : toT (init eikS g [] pts).tm ≤ _ := htm0
    rw [hm] at this; exact this
  have key : GInv dims eikS g pts s ∧ LowG X s.g ∧ s.tm = fin m ∧ ∀ k, s.g.state k = .frozen → tv s.g k ≤ (m : WithTop ℝ) := by
    refine Steps.inv (I := fun s : St XR => GInv dims eikS g pts s ∧ LowG X s.g ∧ s.tm = fin m ∧
      ∀ k, s.g.state k = .frozen → tv s.g k ≤ (m : WithTop ℝ)) ?_ hs
      ⟨GInv.start eikS X.input hfr.state, z1.low, hm, ?_⟩
    · rintro a b ⟨h1, h2, h3, h4⟩ hst
      obtain ⟨G, hpr, hfz⟩ := h1.step X.input hst
      refine ⟨G, hpr _ (LowG.prim X) h2, ?_⟩
      obtain ⟨_, rfl⟩ := hst
      unfold next at *
      split
      · next x rest hr =>
        have hxg : x ∈ a.gamma := by rw [mem_gamma, hr]; simp
        have hxN : x < dims.prod := reach_lt (h1.sound x hxg).1
        rw [hr] at hfz
        dsimp only at hfz
        have hN : ∀ j ∈ a.g.shape.nbrs x, j < dims.prod := by
          intro j hj; rw [h1.map.shape, X.shape] at hj; exact nbr_lt X.fits hxN hj
        by_cases hle : Arith.le (a.g.value x) a.tm = true
        · obtain ⟨_, _, d3, d4, _, _, _, d8, _⟩ := relax2s_spec eikS (a.g.shape.nbrs x) a hN
          unfold visit
          rw [if_pos hle]
          refine ⟨d8.trans h3, ?_⟩
          intro k hk
          by_cases ek : k = x
          · subst ek
            have hval : ((a.g.shape.nbrs k).foldl (relax2 eikS) a).g.value k = a.g.value k := by
              have hni : k ∉ a.g.shape.nbrs k := by
                rw [h1.map.shape, X.shape]; exact nbrs_irrefl X.fits hxN
              have : ∀ (ns : List Nat) (s : St XR), k ∉ ns → (ns.foldl (relax2 eikS) s).g.value k = s.g.value k := by
                intro ns
                induction ns with
                | nil => intro s _; rfl
                | cons y ys ih =>
                  intro s hn
                  rw [List.foldl_cons, ih _ (fun hh => hn (by simp [hh]))]
                  have hky : k ≠ y := fun e => hn (by simp [e])
                  unfold relax2
                  split
                  · rfl
                  · dsimp only
                    split
                    · rw [Grid.value_setState]; exact lower_value_ne _ _ hky
                    · exact lower_value_ne _ _ hky
              exact this _ _ hni
            unfold tv
            dsimp only
            rw [Grid.value_setState, hval]
            rw [h3, le_fin_iff (h2.good k)] at hle
            exact hle
          · dsimp only at hk
            rw [Grid.state_setState, if_neg ek, d4] at hk
            split at hk
            · cases hk
            · unfold tv
              dsimp only
              rw [Grid.value_setState, d3 k hk]
              exact h4 k hk
        · unfold visit
          rw [if_neg hle]
          exact ⟨h3, h4⟩
      · next hr =>
        have hlt : ∀ x ∈ a.gamma, x < dims.prod := fun x hx => reach_lt (h1.sound x hx).1
        have p := pass1_p1 eikS X.fits (Arith.add a.tm (fin 0)) a.gamma a.g (h1.map.shape.trans X.shape) hlt
        refine ⟨?_, ?_⟩
        · show Arith.add a.tm (fin 0) = fin m
          rw [h3]; show XR.add _ _ = _; simp [XR.add]
        · intro k hk
          have hk : (pass1 eikS (Arith.add a.tm (fin 0)) a.gamma a.g).state k = _ := hk
          rw [p.state] at hk
          show toT ((pass1 eikS (Arith.add a.tm (fin 0)) a.gamma a.g).value k) ≤ _
          rw [p.frozen k hk]
          exact h4 k hk
    · intro k hk
      have := hI.zero k (hI.frz k hk)
      have h0 : (init eikS g [] pts).g.value k = Arith.zero := this.2
      unfold tv
      rw [h0]
      show ((0:ℝ) : WithTop ℝ) ≤ _
      exact_mod_cast hm0
  have hend := C49_GMM_no_goal_ends_empty _ goal _ dims g pts X.input hfr.state hgoal n s hs hdone
  have hfz := (C49_GMM_frozen_iff_reachable _ goal _ dims g pts X.input hfr.state (zeroOcc_xr g) n s hs hend i).2 hi
  have h1 := key.2.2.2 i hfz
  have h2 := key.2.1.low U hU i (reach_lt hi)
  exact absurd (lt_of_lt_of_le hlate (le_trans h2 (le_trans h1 hmle))) (lt_irrefl _)

/-- a 2x2 grid whose last cell is ten times slower -/
noncomputable def ex10 : Grid XR :=
  { Grid.create (F := XR) [2,2] (fin 1) (0,0) with
    cells := fun i => { (Grid.create (F := XR) [2,2] (fin 1) (0,0)).cells i with occupancy := if i = 3 then fin (1/10) else fin 1 } }

theorem ex10_input : XInput [2,2] ex10 1 (fun i => if i = 3 then 1/10 else 1) [0] := by
  refine ⟨⟨by decide, by decide, by decide⟩, by decide, rfl, by decide, one_pos, rfl, ?_⟩
  intro i _ _
  show (if i = 3 then fin (1/10) else fin 1) = fin _
  split <;> rfl

theorem ex10_fresh : Fresh ex10 := ⟨fun _ => rfl, fun _ => rfl, fun _ => rfl⟩

/-- non-vacuity: GMM ends on this grid with time step 1, and does not end with time step 0 -/
example : (∃ n s, Steps (Step (fin 1) noGoal eikS) n (init eikS ex10 [] [0]) s ∧ Done s ∧ ∀ i, s.g.state i = .frozen ↔ reach [2,2] ex10 [0] i) ∧
    reach [2,2] ex10 [0] 3 ∧
    ∀ n s, Steps (Step (fin 0) noGoal eikS) n (init eikS ex10 [] [0]) s → ¬ Done s := by
  have hocc : ∀ i, ex10.occ i = false := by
    intro i
    show Arith.lt (if i = 3 then fin (1/10) else fin 1) (fin eps) = false
    split <;> simp [Arith.lt, XR.lt] <;> unfold eps <;> norm_num
  have h1 : reach [2,2] ex10 [0] 1 := by
    have := (axisAdjacent_iff ex10_input.fits (show 0 < [2,2].prod by decide)).1 (show 1 ∈ (Shape.mk' [2,2]).nbrs 0 by decide)
    exact .move (.start (by simp) (by decide)) this.1 (hocc 1) this.2
  have h3 : reach [2,2] ex10 [0] 3 := by
    have := (axisAdjacent_iff ex10_input.fits (show 1 < [2,2].prod by decide)).1 (show 3 ∈ (Shape.mk' [2,2]).nbrs 1 by decide)
    exact .move h1 this.1 (hocc 3) this.2
  refine ⟨C49_GMM_total ex10_input ex10_fresh noGoal (by decide) 1 one_pos, h3, ?_⟩
  intro n s hs
  obtain ⟨U, hU, hnn, _⟩ := C17_unique_solution ex10_input.problem ex10_input.wellPosed
  refine C49_GMM_zero_step_never_ends ex10_input ex10_fresh U hU noGoal (by decide) 0 1 3 (by simp) (by decide) (by simp) (hocc 1) h3 ?_ n s hs
  have e := ((ex10_input.exSol hU) 3 (by decide)).2.2 (by simp) (by simp [hocc])
  rcases e with ⟨r, hr, hres⟩ | ⟨hr, _⟩
  · rw [hr]
    have heps : eps < 1 := by unfold eps; norm_num
    have hr0 : 0 ≤ r := by
      have := hnn 3 (by decide)
      rw [hr] at this; exact_mod_cast this
    have hb : ∀ m : WithTop ℝ, 0 ≤ m → posSq r m ≤ r^2 := by
      intro m hm
      have := posSq_anti r hm
      have h0 : posSq r (0 : WithTop ℝ) = (max (r - 0) 0)^2 := rfl
      rw [h0, sub_zero, max_eq_left hr0] at this
      exact this
    have hsum : residL r (mins (Shape.mk' [2,2]) U 3) ≤ 2 * r^2 := by
      have hm : mins (Shape.mk' [2,2]) U 3 = [dimMin (Shape.mk' [2,2]) U 3 0, dimMin (Shape.mk' [2,2]) U 3 1] := rfl
      have hd : ∀ k, k < 2 → 0 ≤ dimMin (Shape.mk' [2,2]) U 3 k := by
        intro k hk
        apply le_dimMin
        intro j hj
        exact hnn j (nbrsDim_lt ex10_input.fits (by decide) hk hj)
      rw [hm, residL_cons, residL_cons, residL_nil]
      have := hb _ (hd 0 (by decide))
      have := hb _ (hd 1 (by decide))
      linarith
    rw [hres] at hsum
    have h100 : (1 / (if (3:Nat) = 3 then (1/10 : ℝ) else 1))^2 = 100 := by norm_num
    rw [h100] at hsum
    have : (1:ℝ) / (if (1:Nat) = 3 then (1/10 : ℝ) else 1) + eps < r := by
      have : (1:ℝ) / (if (1:Nat) = 3 then (1/10 : ℝ) else 1) = 1 := by norm_num
      rw [this]
      nlinarith
    exact_mod_cast this
  · rw [hr]; exact WithTop.coe_lt_top _

end GMM
end FMV
