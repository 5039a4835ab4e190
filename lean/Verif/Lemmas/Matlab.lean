import Verif.Model.Matlab
import Verif.Lemmas.IO
/-
Lemmas about the MATLAB scripts: words, numbers and loops.
-/
namespace FMV.Matlab
open Console Text Arith Spec FMV.IO
variable {F : Type} [Arith F]

/-- a word: not empty, no white space -/
def Word (t : Str) : Prop := t ≠ [] ∧ ∀ c ∈ t, isSpace c = false

theorem Word.number {t : Str} (h : IsNumber t) : Word t := ⟨h.1, fun c hc => digit_not_space (isDigit_iff.2 (h.2 c hc))⟩

theorem wordsFrom_token {t : Str} (h : ∀ c ∈ t, isSpace c = false) (cur r : Str) : wordsFrom cur (t ++ r) = wordsFrom (cur ++ t) r := by
  induction t generalizing cur with
  | nil => simp
  | cons c cs ih =>
    rw [List.cons_append, wordsFrom, h c (by simp), if_neg (by simp), ih (fun x hx => h x (by simp [hx]))]
    simp

theorem words_nil : words [] = [] := rfl

theorem words_space {c : Char} (h : isSpace c = true) (r : Str) : words (c :: r) = words r := by
  unfold words
  rw [wordsFrom, if_pos h, if_pos rfl]

theorem words_token {t r : Str} (h : Word t) (hr : Stop r) : words (t ++ r) = t :: words r := by
  unfold words
  rw [wordsFrom_token h.2, List.nil_append]
  rcases hr with rfl | ⟨c, s, rfl, hc⟩
  · simp [wordsFrom, h.1]
  · rw [wordsFrom, if_pos hc, if_neg h.1, wordsFrom, if_pos hc, if_pos rfl]

theorem stop_nl (r : Str) : Stop ('\n' :: r) := Or.inr ⟨'\n', r, rfl, by decide⟩
theorem stop_tab (r : Str) : Stop ('\t' :: r) := Or.inr ⟨'\t', r, rfl, by decide⟩

/-- words each followed by a tab -/
theorem words_tabs {α : Type} (f : α → Str) (l : List α) (h : ∀ x ∈ l, Word (f x)) (r : Str) :
    words (l.flatMap (fun x => f x ++ ['\t']) ++ r) = l.map f ++ words r := by
  induction l with
  | nil => rfl
  | cons a as ih =>
    rw [List.flatMap_cons, List.append_assoc, List.append_assoc, List.singleton_append, words_token (h a (by simp)) (stop_tab _), words_space (by decide),
      ih (fun x hx => h x (by simp [hx]))]
    rfl

/-- words each followed by a line end -/
theorem words_nls {α : Type} (f : α → Str) (l : List α) (h : ∀ x ∈ l, Word (f x)) (r : Str) :
    words (l.flatMap (fun x => f x ++ ['\n']) ++ r) = l.map f ++ words r := by
  induction l with
  | nil => rfl
  | cons a as ih =>
    rw [List.flatMap_cons, List.append_assoc, List.append_assoc, List.singleton_append, words_token (h a (by simp)) (stop_nl _), words_space (by decide),
      ih (fun x hx => h x (by simp [hx]))]
    rfl

theorem stop_lines {α : Type} (f : α → Str) (l : List α) {r : Str} (hr : Stop r) : Stop (l.flatMap (fun x => '\n' :: f x) ++ r) := by
  cases l with
  | nil => exact hr
  | cons a as => exact stop_nl _

/-- lines with one word each -/
theorem words_lines {α : Type} (f : α → Str) (l : List α) (h : ∀ x ∈ l, Word (f x)) {r : Str} (hr : Stop r) :
    words (l.flatMap (fun x => '\n' :: f x) ++ r) = l.map f ++ words r := by
  induction l with
  | nil => rfl
  | cons a as ih =>
    rw [List.flatMap_cons, List.append_assoc, List.cons_append, words_space (by decide),
      words_token (h a (by simp)) (stop_lines f as hr), ih (fun x hx => h x (by simp [hx]))]
    rfl

/-- lines of several words -/
theorem words_rows {α : Type} (f : α → Str) (g : α → List Str) (l : List α) (h : ∀ x ∈ l, ∀ r, Stop r → words (f x ++ r) = g x ++ words r) {r : Str} (hr : Stop r) :
    words (l.flatMap (fun x => '\n' :: f x) ++ r) = l.flatMap g ++ words r := by
  induction l with
  | nil => rfl
  | cons a as ih =>
    rw [List.flatMap_cons, List.append_assoc, List.cons_append, words_space (by decide),
      h a (by simp) _ (stop_lines f as hr), ih (fun x hx => h x (by simp [hx])), List.flatMap_cons, List.append_assoc]

theorem numbers_append (num : Str → Option F) {α : Type} (f : α → Str) (v : α → F) (l : List α) (h : ∀ x ∈ l, num (f x) = some (v x)) (r : List Str) :
    numbers num (l.map f ++ r) = l.map v ++ numbers num r := by
  induction l with
  | nil => rfl
  | cons a as ih =>
    rw [List.map_cons, List.cons_append, numbers, h a (by simp)]
    show v a :: numbers num (as.map f ++ r) = _
    rw [ih (fun x hx => h x (by simp [hx]))]
    rfl

theorem numbers_cons (num : Str → Option F) {t : Str} {x : F} (h : num t = some x) (r : List Str) : numbers num (t :: r) = x :: numbers num r := by
  rw [numbers, h]

theorem numbers_flat (num : Str → Option F) {α : Type} (g : α → List Str) (v : α → List F) (l : List α)
    (h : ∀ x ∈ l, ∀ r, numbers num (g x ++ r) = v x ++ numbers num r) (r : List Str) :
    numbers num (l.flatMap g ++ r) = l.flatMap v ++ numbers num r := by
  induction l with
  | nil => rfl
  | cons a as ih =>
    rw [List.flatMap_cons, List.append_assoc, h a (by simp), ih (fun x hx => h x (by simp [hx])), List.flatMap_cons, List.append_assoc]

theorem mapM_range {α : Type} (f : Nat → Option α) (n : Nat) (l : List α) (hl : l.length = n) (h : ∀ i (hi : i < l.length), f i = some l[i]) :
    (List.range n).mapM f = some l := by
  have key : ∀ (is : List Nat) (l : List α) (hl : l.length = is.length), (∀ k (hk : k < is.length), f is[k] = some (l[k]'(by omega))) → is.mapM f = some l := by
    intro is
    induction is with
    | nil =>
      intro l hl _
      have : l = [] := List.length_eq_zero_iff.1 hl
      subst this; rfl
    | cons a as ih =>
      intro l hl h
      cases l with
      | nil => simp at hl
      | cons x xs =>
        have h0 := h 0 (by simp)
        have h1 := ih xs (by simpa using hl) (fun k hk => by have := h (k+1) (by simpa using hk); simpa using this)
        simp only [List.getElem_cons_zero] at h0
        rw [List.mapM_cons, h0, h1]
        rfl
  exact key _ _ (by simp [hl]) (fun k hk => by
    have hk' : k < n := by simpa using hk
    simpa using h k (by omega))

/-- element `k*n+j` of lists of the same length `n` put together -/
theorem flat_get {α : Type} (L : List (List α)) (n : Nat) (h : ∀ l ∈ L, l.length = n) (k j : Nat) (hj : j < n) :
    L.flatten[k * n + j]? = (L[k]?).bind (fun l => l[j]?) := by
  induction L generalizing k with
  | nil => simp
  | cons a as ih =>
    have ha := h a (by simp)
    rw [List.flatten_cons]
    cases k with
    | zero => rw [List.getElem?_append_left (by omega)]; simp
    | succ k =>
      rw [List.getElem?_append_right (by rw [ha]; nlinarith)]
      have e : (k + 1) * n + j - a.length = k * n + j := by rw [ha, Nat.succ_mul]; omega
      rw [e, ih (fun l hl => h l (by simp [hl]))]
      simp

theorem flat_length {α : Type} (L : List (List α)) (n : Nat) (h : ∀ l ∈ L, l.length = n) : L.flatten.length = L.length * n := by
  induction L with
  | nil => simp
  | cons a as ih =>
    rw [List.flatten_cons, List.length_append, ih (fun l hl => h l (by simp [hl])), h a (by simp), List.length_cons, Nat.succ_mul]; omega

/-- one row is filled -/
theorem fillRow_ok (data : List F) (nd i count : Nat) (m : Mat F) (v : Nat → F) (hi : 0 < i) (hc : 0 < count) (hcols : m.cols = nd) (hrows : count ≤ m.rows)
    (h : ∀ j < nd, data[i + j - 1]? = some (v j)) :
    ∃ m', fillRow data nd i count m = some m' ∧ m'.rows = m.rows ∧ m'.cols = nd ∧
      ∀ r c, m'.get r c = if r = count - 1 ∧ c < nd then add (v c) (ofNat 1) else m.get r c := by
  have key : ∀ n ≤ nd, ∃ m', (List.range n).foldlM (fun m j => (elem data (i + (j + 1) - 1)).map (fun x => m.set (count - 1) j (add x (ofNat 1)))) m = some m' ∧
      m'.rows = m.rows ∧ m'.cols = nd ∧ ∀ r c, m'.get r c = if r = count - 1 ∧ c < n then add (v c) (ofNat 1) else m.get r c := by
    intro n
    induction n with
    | zero => intro _; exact ⟨m, rfl, rfl, hcols, by intro r c; rw [if_neg (by omega)]⟩
    | succ n ih =>
      intro hn
      obtain ⟨m', e1, e2, e3, e4⟩ := ih (by omega)
      refine ⟨m'.set (count - 1) n (add (v n) (ofNat 1)), ?_, ?_, ?_, ?_⟩
      · rw [List.range_succ, List.foldlM_append, e1]
        have : elem data (i + (n + 1) - 1) = some (v n) := by
          unfold elem
          rw [if_neg (by omega), ← h n (by omega)]
          congr 1
        simp only [Option.bind_eq_bind, Option.bind_some, List.foldlM_cons, this, Option.map_some, List.foldlM_nil]
        rfl
      · show max m'.rows (count - 1 + 1) = m.rows
        rw [e2]; omega
      · show max m'.cols (n + 1) = nd
        rw [e3]; omega
      · intro r c
        show (if r = count - 1 ∧ c = n then add (v n) (ofNat 1) else m'.get r c) = _
        by_cases h1 : r = count - 1
        · by_cases h2 : c = n
          · rw [if_pos ⟨h1, h2⟩, if_pos ⟨h1, by omega⟩, h2]
          · rw [if_neg (fun h => h2 h.2), e4]
            by_cases h3 : c < n
            · rw [if_pos ⟨h1, h3⟩, if_pos ⟨h1, by omega⟩]
            · rw [if_neg (fun h => h3 h.2), if_neg (by rintro ⟨_, h⟩; omega)]
        · rw [if_neg (fun h => h1 h.1), e4, if_neg (fun h => h1 h.1), if_neg (fun h => h1 h.1)]
  exact key nd le_rfl

theorem elem_get (data : List F) (i : Nat) (hi : 0 < i) : elem data i = data[i - 1]? := if_neg (by omega)

theorem sizes_ok (nat : F → Option Nat) (dims : List Nat) (x y : F) (r : List F) (hn : ∀ d ∈ dims, nat (ofNat d) = some d) :
    sizes nat (x :: y :: (dims.map ofNat ++ r)) dims.length = some dims := by
  refine mapM_range _ _ _ rfl (fun i hi => ?_)
  rw [elem_get _ _ (by omega)]
  have : (x :: y :: (dims.map ofNat ++ r))[i + 1 + 2 - 1]? = some (ofNat dims[i]) := by
    rw [show i + 1 + 2 - 1 = i + 2 from by omega]
    simp only [List.getElem?_cons_succ]
    rw [List.getElem?_append_left (by simpa using hi)]
    simp [hi]
  rw [this]
  exact hn _ (List.getElem_mem hi)

theorem rangeLen_eq (nd step n : Nat) (hs : 0 < step) : rangeLen (nd + 3) step (nd + 2 + n * step) = n := by
  unfold rangeLen
  rcases Nat.eq_zero_or_pos n with rfl | hn
  · rw [if_pos (by omega)]
  · have h1 : 0 < n * step := Nat.mul_pos hn hs
    rw [if_neg (by omega)]
    obtain ⟨k, rfl⟩ := Nat.exists_eq_succ_of_ne_zero hn.ne'
    rw [show nd + 2 + (k + 1) * step - (nd + 3) = (step - 1) + k * step from by rw [Nat.succ_mul] at h1 ⊢; omega, Nat.add_mul_div_right _ _ hs,
      Nat.div_eq_of_lt (by omega)]
    omega

end FMV.Matlab
