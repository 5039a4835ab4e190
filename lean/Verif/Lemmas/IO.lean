import Verif.Spec.IO
import Verif.Lemmas.Text
/-
Reading back what was written.
-/
namespace FMV.IO
open Console Text Arith Spec
variable {F : Type} [Arith F]

/-- where a number ends: the end of the file or white space -/
def Stop (r : Str) : Prop := r = [] ∨ ∃ c t, r = c :: t ∧ isSpace c = true

theorem isDigit_iff {c : Char} : isDigit c = true ↔ c ∈ "0123456789".toList := by
  unfold isDigit; rw [List.contains_iff_mem]

theorem digit_cases {c : Char} (h : isDigit c = true) :
    c = '0' ∨ c = '1' ∨ c = '2' ∨ c = '3' ∨ c = '4' ∨ c = '5' ∨ c = '6' ∨ c = '7' ∨ c = '8' ∨ c = '9' := by
  have := isDigit_iff.1 h
  simpa using this

theorem space_cases {c : Char} (h : isSpace c = true) : c = ' ' ∨ c = '\t' ∨ c = '\n' ∨ c = '\x0b' ∨ c = '\x0c' ∨ c = '\r' := by
  unfold isSpace at h
  simpa [or_assoc] using h

theorem digit_not_space {c : Char} (h : isDigit c = true) : isSpace c = false := by
  rcases digit_cases h with rfl | rfl | rfl | rfl | rfl | rfl | rfl | rfl | rfl | rfl <;> decide

theorem scan_stop {r : Str} (h : Stop r) (a b c d : Bool) : scan a b c d r = ([], r) := by
  rcases h with rfl | ⟨ch, t, rfl, hs⟩
  · rfl
  · rcases space_cases hs with rfl | rfl | rfl | rfl | rfl | rfl <;> (unfold scan; simp [isDigit])

/-- digits are collected -/
theorem scan_digits {s : Str} (hs : Digits s) (a b c d : Bool) (r : Str) :
    scan a b c d (s ++ r) =
      (s ++ (scan (if s = [] then a else false) (if s = [] then b else true) c d r).1,
        (scan (if s = [] then a else false) (if s = [] then b else true) c d r).2) := by
  induction s generalizing a b with
  | nil => simp
  | cons x xs ih =>
    have hx := isDigit_iff.2 (hs x (by simp))
    rw [List.cons_append]
    conv_lhs => unfold scan
    rw [if_pos hx, ih (fun c hc => hs c (by simp [hc]))]
    simp

theorem scan_sign (x : Char) (hx : x = '+' ∨ x = '-') (b c d : Bool) (r : Str) :
    scan true b c d (x :: r) = (x :: (scan false b c d r).1, (scan false b c d r).2) := by
  rcases hx with rfl | rfl <;> (conv_lhs => unfold scan) <;> simp [isDigit]

theorem scan_point (a b : Bool) (r : Str) : scan a b false false ('.' :: r) = ('.' :: (scan false b true false r).1, (scan false b true false r).2) := by
  conv_lhs => unfold scan
  cases a <;> simp [isDigit]

theorem scan_exp (a c : Bool) (r : Str) : scan a true c false ('e' :: r) = ('e' :: (scan true true c true r).1, (scan true true c true r).2) := by
  conv_lhs => unfold scan
  cases a <;> simp [isDigit]

/-- A printed number is collected up to its end. -/
theorem scan_float {t r : Str} (ht : FloatText t) (hr : Stop r) : scan true false false false (t ++ r) = (t, r) := by
  obtain ⟨sign, int, frac, exp, rfl, hsign, hint, hfrac, hexp⟩ := ht
  have hexp' : ∀ a c : Bool, scan a true c false (exp ++ r) = (exp, r) := by
    intro a c
    rcases hexp with rfl | ⟨sg, e, rfl, hsg, he⟩
    · rw [List.nil_append]; exact scan_stop hr _ _ _ _
    · rw [List.cons_append, scan_exp, List.cons_append, scan_sign sg hsg, scan_digits he.2, scan_stop hr]
      simp
  have hfrac' : ∀ a : Bool, scan a true false false (frac ++ (exp ++ r)) = (frac ++ exp, r) := by
    intro a
    rcases hfrac with rfl | ⟨f, rfl, hf⟩
    · rw [List.nil_append, List.nil_append]; exact hexp' _ _
    · rw [List.cons_append, scan_point, scan_digits hf]
      simp only [ite_self, hexp', List.cons_append]
  have hint' : ∀ a : Bool, scan a false false false (int ++ (frac ++ (exp ++ r))) = (int ++ (frac ++ exp), r) := by
    intro a
    rw [scan_digits hint.2, if_neg hint.1, if_neg hint.1, hfrac']
  rcases hsign with rfl | rfl
  · simpa [List.append_assoc] using hint' true
  · have := scan_sign '-' (Or.inr rfl) false false false (int ++ (frac ++ (exp ++ r)))
    rw [hint'] at this
    simpa [List.append_assoc] using this

theorem dropWhile_ws {ws : Str} (h : ∀ c ∈ ws, isSpace c = true) (r : Str) : (ws ++ r).dropWhile isSpace = r.dropWhile isSpace := by
  induction ws with
  | nil => rfl
  | cons c cs ih =>
    rw [List.cons_append, List.dropWhile_cons, if_pos (h c (by simp))]
    exact ih (fun x hx => h x (by simp [hx]))

/-- a number text begins with something that is not white space -/
theorem float_head {t : Str} (ht : FloatText t) : ∃ c cs, t = c :: cs ∧ isSpace c = false := by
  obtain ⟨sign, int, frac, exp, rfl, hsign, hint, hfrac, hexp⟩ := ht
  rcases hsign with rfl | rfl
  · obtain ⟨h0, h1⟩ := hint
    cases int with
    | nil => exact absurd rfl h0
    | cons c cs => exact ⟨c, cs ++ frac ++ exp, by simp, digit_not_space (isDigit_iff.2 (h1 c (by simp)))⟩
  · exact ⟨'-', int ++ frac ++ exp, by simp, by decide⟩

/-- reading a printed floating-point number -/
theorem readDouble_token (conv : Str → F × Bool) {ws t r : Str} (hws : ∀ c ∈ ws, isSpace c = true) (ht : FloatText t) (hr : Stop r) (old : F) :
    readDouble conv ⟨ws ++ t ++ r, true⟩ old = ((conv t).1, ⟨r, (conv t).2 && !r.isEmpty⟩) := by
  obtain ⟨c, cs, rfl, hc⟩ := float_head ht
  unfold readDouble
  have hd : (ws ++ (c :: cs) ++ r).dropWhile isSpace = c :: (cs ++ r) := by
    rw [List.append_assoc, dropWhile_ws hws, List.cons_append, List.dropWhile_cons, if_neg (by simp [hc])]
  simp only [Bool.not_true, Bool.false_eq_true, if_false, hd]
  rw [← List.cons_append, scan_float ht hr]

/-- A stream that is not good leaves the variable unchanged. -/
theorem readDouble_stuck (conv : Str → F × Bool) (r : Str) (old : F) : readDouble conv ⟨r, false⟩ old = (old, ⟨r, false⟩) := rfl

theorem takeWhile_digits {s r : Str} (hs : Digits s) (hr : Stop r) : (s ++ r).takeWhile isDigit = s ∧ (s ++ r).dropWhile isDigit = r := by
  induction s with
  | nil =>
    rcases hr with rfl | ⟨c, t, rfl, hc⟩
    · exact ⟨rfl, rfl⟩
    · have : isDigit c = false := by
        cases h : isDigit c with
        | false => rfl
        | true => rw [digit_not_space h] at hc; exact absurd hc (by simp)
      simp [List.dropWhile_cons, this]
  | cons c cs ih =>
    have hc := isDigit_iff.2 (hs c (by simp))
    obtain ⟨h1, h2⟩ := ih (fun x hx => hs x (by simp [hx]))
    rw [List.cons_append, List.takeWhile_cons, List.dropWhile_cons, if_pos hc, if_pos hc, h1, h2]
    exact ⟨rfl, rfl⟩

/-- reading a printed unsigned number -/
theorem readUnsigned_token (b : Nat) {ws r : Str} (n : Nat) (hws : ∀ c ∈ ws, isSpace c = true) (hn : n < 2^b) (hr : Stop r) (old : Nat) :
    readUnsigned b ⟨ws ++ decimal n ++ r, true⟩ old = (n, ⟨r, !r.isEmpty⟩) := by
  obtain ⟨h0, h1⟩ := decimal_number n
  have hv : digitsVal (decimal n) = n := read_decimal n
  cases hd : decimal n with
  | nil => exact absurd hd h0
  | cons c cs =>
    rw [hd] at h1 hv
    have hc := isDigit_iff.2 (h1 c (by simp))
    have hsg : ¬ (c = '+' ∨ c = '-') ∧ ¬ c = '-' := by
      rcases digit_cases hc with rfl | rfl | rfl | rfl | rfl | rfl | rfl | rfl | rfl | rfl <;> decide
    unfold readUnsigned
    have hdw : (ws ++ (c :: cs) ++ r).dropWhile isSpace = c :: (cs ++ r) := by
      rw [List.append_assoc, dropWhile_ws hws, List.cons_append, List.dropWhile_cons, if_neg (by simp [digit_not_space hc])]
    obtain ⟨ht, hdr⟩ := takeWhile_digits (s := c :: cs) (r := r) h1 hr
    simp only [Bool.not_true, Bool.false_eq_true, if_false, hdw]
    rw [if_neg hsg.1, ← List.cons_append, ht, hdr, if_neg (by simp), hv, if_neg (by omega)]
    simp [hsg.2]

/-- reading the dimension sizes -/
theorem readDims_tokens {ds js : List Nat} (hl : ds.length = js.length) (hlt : ∀ d ∈ ds, d < 2^32) {ws : Str} (hws : ∀ c ∈ ws, isSpace c = true) (tail : Str)
    (hne : ds ≠ []) :
    readDims js ⟨ws ++ ds.flatMap (fun d => '\n' :: decimal d ++ ['\t']) ++ tail, true⟩ = (ds, ⟨'\t' :: tail, true⟩) := by
  induction ds generalizing js ws with
  | nil => exact absurd rfl hne
  | cons d ds ih =>
    cases js with
    | nil => simp at hl
    | cons j js =>
      unfold readDims
      have e : ws ++ (d :: ds).flatMap (fun d => '\n' :: decimal d ++ ['\t']) ++ tail =
          (ws ++ ['\n']) ++ decimal d ++ ('\t' :: (ds.flatMap (fun d => '\n' :: decimal d ++ ['\t']) ++ tail)) := by simp
      rw [e, readUnsigned_token 32 d (by intro c hc; rcases List.mem_append.1 hc with h | h; exacts [hws c h, by rw [List.mem_singleton.1 h]; decide])
        (hlt d (by simp)) (Or.inr ⟨_, _, rfl, by decide⟩)]
      by_cases hds : ds = []
      · subst hds
        cases js with
        | nil => rfl
        | cons j' js => simp at hl
      · have := ih (js := js) (by simpa using hl) (fun x hx => hlt x (by simp [hx])) (ws := ['\t']) (by intro c hc; rw [List.mem_singleton.1 hc]; decide) hds
        have e2 : ['\t'] ++ ds.flatMap (fun d => '\n' :: decimal d ++ ['\t']) ++ tail = '\t' :: (ds.flatMap (fun d => '\n' :: decimal d ++ ['\t']) ++ tail) := rfl
        rw [e2] at this
        simp only [List.isEmpty_cons, Bool.not_false, this]

theorem occ_setVelocity (g : Grid F) (i : Nat) (v : F) : (g.setVelocity i v).occ i = lt v (margin : F) := by
  simp [Grid.occ, Grid.setVelocity, Grid.modify, Cell.isOccupied]

/-- the grid with the velocities `w` in the cells of `l` -/
def withVel (g : Grid F) (l : List Nat) (w : Nat → F) : Grid F :=
  { g with cells := fun k => if k ∈ l then { g.cells k with occupancy := w k } else g.cells k }

theorem withVel_nil (g : Grid F) (w : Nat → F) : withVel g [] w = g := by unfold withVel; simp

theorem withVel_cons (g : Grid F) (i : Nat) (l : List Nat) (w : Nat → F) (v : F) (hv : v = w i) : withVel (g.setVelocity i v) l w = withVel g (i :: l) w := by
  subst hv
  unfold withVel Grid.setVelocity Grid.modify
  congr 1
  funext k
  by_cases hk : k = i
  · subst hk; by_cases hl : k ∈ l <;> simp [hl]
  · by_cases hl : k ∈ l <;> simp [hl, hk]

/-- Once the stream is not good, the remaining cells get the last value. -/
theorem readCells_stuck (conv : Str → F × Bool) (js : List Nat) (r : Str) (old : F) (g : Grid F) (obs : List Nat) :
    readCells conv js ⟨r, false⟩ old g obs = (withVel g js (fun _ => old), obs ++ js.filter (fun _ => lt old (margin : F))) := by
  induction js generalizing g obs with
  | nil => simp [readCells, withVel_nil]
  | cons j js ih =>
    unfold readCells
    rw [readDouble_stuck]
    simp only [occ_setVelocity]
    rw [ih, withVel_cons g j js (fun _ => old) old rfl]
    cases h : lt old (margin : F) <;> simp [h]

theorem readDouble_blank (conv : Str → F × Bool) {ws : Str} (hws : ∀ c ∈ ws, isSpace c = true) (b : Bool) (old : F) :
    ∃ r, readDouble conv ⟨ws, b⟩ old = (old, ⟨r, false⟩) := by
  cases b with
  | false => exact ⟨ws, rfl⟩
  | true =>
    refine ⟨[], ?_⟩
    unfold readDouble
    have := dropWhile_ws hws []
    rw [List.append_nil] at this
    simp [this]

/-- a blank rest leaves the remaining cells with the last value -/
theorem readCells_blank (conv : Str → F × Bool) (js : List Nat) {ws : Str} (hws : ∀ c ∈ ws, isSpace c = true) (b : Bool) (old : F) (g : Grid F) (obs : List Nat) :
    readCells conv js ⟨ws, b⟩ old g obs = (withVel g js (fun _ => old), obs ++ js.filter (fun _ => lt old (margin : F))) := by
  cases js with
  | nil => simp [readCells, withVel_nil]
  | cons j js =>
    obtain ⟨r, h⟩ := readDouble_blank conv hws b old
    unfold readCells
    rw [h]
    simp only [occ_setVelocity]
    rw [readCells_stuck, withVel_cons g j js (fun _ => old) old rfl]
    cases h : lt old (margin : F) <;> simp [h]

/-- Reading the cells of a file that ends after the cells in `is`: the cells in `js` get the last value read. -/
theorem readCells_tokens (conv : Str → F × Bool) (fmt : F → Str) (v w : Nat → F) (is js : List Nat) (hp : ∀ i ∈ is, Prints fmt conv (v i) (w i))
    (hnd : ∀ i ∈ is, i ∉ js) {ws : Str} (hws : ∀ c ∈ ws, isSpace c = true) (old : F) (g : Grid F) (obs : List Nat) :
    ∃ u : Nat → F, (∀ i ∈ is, u i = w i) ∧ (∀ j ∈ js, u j = (is.getLast?.map w).getD old) ∧
      readCells conv (is ++ js) ⟨ws ++ is.flatMap (fun i => '\n' :: fmt (v i)), true⟩ old g obs =
        (withVel g (is ++ js) u, obs ++ (is ++ js).filter (fun i => lt (u i) (margin : F))) := by
  induction is generalizing ws old g obs with
  | nil => exact ⟨fun _ => old, by simp, by simp, by simpa using readCells_blank conv js hws true old g obs⟩
  | cons i is ih =>
    have hp0 := hp i (by simp)
    have e : ws ++ (i :: is).flatMap (fun i => '\n' :: fmt (v i)) = (ws ++ ['\n']) ++ fmt (v i) ++ is.flatMap (fun i => '\n' :: fmt (v i)) := by simp
    have hst : Stop (is.flatMap (fun i => '\n' :: fmt (v i))) := by
      cases is with
      | nil => exact Or.inl rfl
      | cons a as => exact Or.inr ⟨'\n', fmt (v a) ++ as.flatMap (fun i => '\n' :: fmt (v i)), by simp, by decide⟩
    have hws' : ∀ c ∈ ws ++ ['\n'], isSpace c = true := by
      intro c hc; rcases List.mem_append.1 hc with h | h
      · exact hws c h
      · rw [List.mem_singleton.1 h]; decide
    rw [List.cons_append]
    unfold readCells
    rw [e, readDouble_token conv hws' hp0.1 hst]
    simp only [hp0.2, occ_setVelocity, Bool.true_and]
    by_cases his : is = []
    · subst his
      refine ⟨fun _ => w i, by simp, by simp, ?_⟩
      simp only [List.flatMap_nil, List.isEmpty_nil, Bool.not_true, List.nil_append]
      rw [readCells_stuck, withVel_cons g i js (fun _ => w i) (w i) rfl]
      cases h : lt (w i) (margin : F) <;> simp [h]
    · have hne : (is.flatMap (fun i => '\n' :: fmt (v i))).isEmpty = false := by
        cases is with
        | nil => exact absurd rfl his
        | cons a as => rfl
      obtain ⟨u, hu1, hu2, hu3⟩ := ih (fun k hk => hp k (by simp [hk])) (fun k hk => hnd k (by simp [hk])) (ws := []) (by simp) (w i)
        (g.setVelocity i (w i)) (if lt (w i) (margin : F) = true then obs ++ [i] else obs)
      simp only [List.nil_append] at hu3
      refine ⟨fun k => if k = i then w i else u k, ?_, ?_, ?_⟩
      · intro k hk
        by_cases hki : k = i
        · simp [hki]
        · simp only [hki, if_false]; exact hu1 k (by simpa [hki] using hk)
      · intro j hj
        have hji : j ≠ i := fun h => hnd i (by simp) (h ▸ hj)
        simp only [hji, if_false]
        rw [hu2 j hj]
        have : (i :: is).getLast? = is.getLast? := by
          cases is with
          | nil => exact absurd rfl his
          | cons a as => simp
        rw [this]
        cases h : is.getLast? with
        | none => exact absurd (List.getLast?_eq_none_iff.1 h) his
        | some x => rfl
      · rw [hne]
        simp only [Bool.not_false]
        rw [hu3]
        have hu' : ∀ k ∈ is ++ js, u k = (fun k => if k = i then w i else u k) k := by
          intro k hk
          by_cases hki : k = i
          · subst hki
            rcases List.mem_append.1 hk with h | h
            · simp [hu1 k h]
            · exact absurd h (hnd k (by simp))
          · simp [hki]
        refine Prod.ext ?_ ?_
        · show withVel _ _ u = _
          rw [← withVel_cons g i (is ++ js) _ (w i) (by simp)]
          unfold withVel
          congr 1
          funext k
          by_cases hk : k ∈ is ++ js
          · rw [if_pos hk, if_pos hk, hu' k hk]
          · rw [if_neg hk, if_neg hk]
        · show _ ++ _ = _
          rw [List.filter_cons]
          have : (is ++ js).filter (fun i => lt (u i) (margin : F)) = (is ++ js).filter (fun k => lt ((fun k => if k = i then w i else u k) k) (margin : F)) := by
            apply List.filter_congr
            intro k hk
            rw [hu' k hk]
          rw [this]
          cases h : lt (w i) (margin : F) <;> simp [h]

/-- The text of an infinite velocity is not a number for the stream: 0 is stored and the stream fails. -/
theorem readDouble_inf (conv : Str → F × Bool) (hconv : conv [] = (zero, false)) {ws : Str} (hws : ∀ c ∈ ws, isSpace c = true) (r : Str) (old : F) :
    readDouble conv ⟨ws ++ 'i' :: r, true⟩ old = (zero, ⟨'i' :: r, false⟩) := by
  unfold readDouble
  have hd : (ws ++ 'i' :: r).dropWhile isSpace = 'i' :: r := by
    rw [dropWhile_ws hws, List.dropWhile_cons, if_neg (by decide)]
  have hsc : scan true false false false ('i' :: r) = ([], 'i' :: r) := by
    unfold scan; simp [isDigit]
  simp [hd, hsc, hconv]

theorem readCells_inf (conv : Str → F × Bool) (hconv : conv [] = (zero, false)) (fmt : F → Str) (v w : Nat → F) (is js : List Nat)
    (hp : ∀ i ∈ is, Prints fmt conv (v i) (w i)) (hw : ∀ j ∈ js, w j = zero) {ws : Str} (hws : ∀ c ∈ ws, isSpace c = true) (r : Str) (old : F) (g : Grid F) (obs : List Nat)
    (hjs : js ≠ []) :
    readCells conv (is ++ js) ⟨ws ++ is.flatMap (fun i => '\n' :: fmt (v i)) ++ '\n' :: 'i' :: r, true⟩ old g obs =
        (withVel g (is ++ js) w, obs ++ (is ++ js).filter (fun i => lt (w i) (margin : F))) := by
  have hws' : ∀ c ∈ ws ++ ['\n'], isSpace c = true := by
    intro c hc; rcases List.mem_append.1 hc with h | h
    · exact hws c h
    · rw [List.mem_singleton.1 h]; decide
  induction is generalizing ws old g obs with
  | nil =>
    cases js with
    | nil => exact absurd rfl hjs
    | cons j js =>
      simp only [List.nil_append, List.flatMap_nil, List.append_nil]
      unfold readCells
      have := readDouble_inf conv hconv hws' r old
      rw [List.append_assoc] at this
      simp only [List.singleton_append] at this
      rw [this]
      simp only [occ_setVelocity]
      rw [readCells_stuck]
      have h0 := hw j (by simp)
      refine Prod.ext ?_ ?_
      · show withVel _ _ _ = _
        rw [← withVel_cons g j js w zero h0.symm]
        unfold withVel
        congr 1
        funext k
        by_cases hk : k ∈ js
        · rw [if_pos hk, if_pos hk, hw k (by simp [hk])]
        · rw [if_neg hk, if_neg hk]
      · show _ ++ _ = _
        rw [List.filter_cons, h0]
        have : js.filter (fun i => lt (w i) (margin : F)) = js.filter (fun _ => lt zero (margin : F)) := by
          apply List.filter_congr
          intro k hk
          rw [hw k (by simp [hk])]
        rw [this]
        cases h : lt zero (margin : F) <;> simp
  | cons i is ih =>
    have hp0 := hp i (by simp)
    have e : ws ++ (i :: is).flatMap (fun i => '\n' :: fmt (v i)) ++ '\n' :: 'i' :: r =
        (ws ++ ['\n']) ++ fmt (v i) ++ (is.flatMap (fun i => '\n' :: fmt (v i)) ++ '\n' :: 'i' :: r) := by simp
    have hst : ∃ t, is.flatMap (fun i => '\n' :: fmt (v i)) ++ '\n' :: 'i' :: r = '\n' :: t := by
      cases is with
      | nil => exact ⟨_, rfl⟩
      | cons a as => exact ⟨fmt (v a) ++ as.flatMap (fun i => '\n' :: fmt (v i)) ++ '\n' :: 'i' :: r, by simp⟩
    obtain ⟨t, ht⟩ := hst
    rw [List.cons_append]
    unfold readCells
    rw [e, readDouble_token conv hws' hp0.1 (Or.inr ⟨'\n', t, ht, by decide⟩)]
    simp only [hp0.2, occ_setVelocity, Bool.true_and]
    have hne : (is.flatMap (fun i => '\n' :: fmt (v i)) ++ '\n' :: 'i' :: r).isEmpty = false := by rw [ht]; rfl
    rw [hne]
    have := ih (fun k hk => hp k (by simp [hk])) (ws := []) (by simp) (w i) (g.setVelocity i (w i)) (if lt (w i) (margin : F) = true then obs ++ [i] else obs)
      (by intro c hc; rw [List.nil_append] at hc; rw [List.mem_singleton.1 hc]; decide)
    simp only [List.nil_append] at this
    simp only [Bool.not_false]
    rw [this, withVel_cons _ _ _ _ _ rfl, List.filter_cons]
    cases h : lt (w i) (margin : F) <;> simp

end FMV.IO
