import Verif.Props.MatlabGrid
/-
C77: indices and the benchmark log in MATLAB.
-/
namespace FMV
open Console Text Arith Spec FMV.IO Matlab Shape
variable {F : Type} [Arith F]

namespace Matlab

theorem products_getD (dims : List Nat) (acc k : Nat) (hk : k < dims.length) : (products acc dims).getD k 0 = acc * strideOf dims (k+1) := by
  induction dims generalizing acc k with
  | nil => simp at hk
  | cons x xs ih =>
    cases k with
    | zero => simp [products, strideOf]
    | succ k =>
      rw [products, List.getD_cons_succ, ih (acc * x) k (by simpa using hk)]
      simp [strideOf, Nat.mul_assoc]

theorem loop_eq {dims : List Nat} (hf : Fits dims 4294967296) (k aux : Nat) (hk : k < dims.length) (ha : aux < 4294967296) :
    idx2coordLoop (products 1 dims) k aux = Shape.idx2coordLoop (Shape.mk' dims) k aux := by
  induction k generalizing aux with
  | zero => rfl
  | succ k ih =>
    have h1 : (products 1 dims).getD k 0 = (Shape.mk' dims).d.getD k 0 := by
      rw [products_getD dims 1 k (by omega), mk'_d hf (by omega), one_mul]
    unfold idx2coordLoop Shape.idx2coordLoop
    simp only [h1]
    set d := (Shape.mk' dims).d.getD k 0
    have hle : aux / d * d ≤ aux := Nat.div_mul_le_self aux d
    have h2 : u32sub aux (u32 (aux / d * d)) = aux - aux / d * d := by
      unfold u32sub u32
      omega
    rw [h2, ih _ (by omega) (by omega)]

end Matlab

/-- **C77** (indices): `idx2coord.m` gives the coordinates of the cell with this index, plus one. -/
theorem C77_idx2coord (dims : List Nat) (hf : Fits dims (2^32)) (cs : List Nat) (hc : InBox dims cs) :
    Matlab.idx2coord dims ((Shape.mk' dims).coord2idx cs) = cs.map (· + 1) := by
  obtain ⟨h1, -, h3⟩ := C01_coord_roundtrip dims hf cs hc
  rw [mk'_ncells hf] at h1
  unfold Matlab.idx2coord
  rw [loop_eq hf _ _ (by have := hf.two; omega) (lt_trans h1 hf.lt)]
  conv_rhs => rw [← h3]
  rfl

namespace Matlab

/-- the pieces of a text -/
def pieces (s : Str) : List Str := splitFrom [] (collapse false s)

theorem collapse_word {t : Str} (h : ∀ c ∈ t, isSpace c = false) (r : Str) : collapse false (t ++ r) = t ++ collapse false r := by
  induction t with
  | nil => rfl
  | cons c cs ih => rw [List.cons_append, collapse, h c (by simp), if_neg (by simp), ih (fun x hx => h x (by simp [hx]))]; rfl

theorem collapse_true_word {t : Str} (h : Word t) (r : Str) : collapse true (t ++ r) = collapse false (t ++ r) := by
  cases t with
  | nil => exact absurd rfl h.1
  | cons c cs => rw [List.cons_append, collapse, collapse, h.2 c (by simp), if_neg (by simp)]; rfl

theorem splitFrom_word {t : Str} (h : ∀ c ∈ t, isSpace c = false) (cur r : Str) : splitFrom cur (t ++ r) = splitFrom (cur ++ t) r := by
  induction t generalizing cur with
  | nil => simp
  | cons c cs ih =>
    have hc := h c (by simp)
    rw [List.cons_append, splitFrom, if_neg, ih (fun x hx => h x (by simp [hx]))]
    · simp
    · rintro (rfl | rfl) <;> exact absurd hc (by decide)

/-- words separated by single characters of white space -/
theorem pieces_words (t : Str) (ht : Word t) (l : List (Char × Str)) (hl : ∀ p ∈ l, isSpace p.1 = true ∧ Word p.2) :
    pieces (t ++ l.flatMap (fun p => p.1 :: p.2)) = t :: l.map (·.2) := by
  induction l generalizing t with
  | nil =>
    unfold pieces
    have := collapse_word ht.2 []
    simp only [List.append_nil] at this
    rw [List.flatMap_nil, List.append_nil, this]
    have := splitFrom_word ht.2 [] []
    simp only [List.append_nil, List.nil_append] at this
    simp only [collapse, List.append_nil, this, splitFrom, List.map_nil]
  | cons p ps ih =>
    obtain ⟨h1, h2⟩ := hl p (by simp)
    have := ih p.2 h2 (fun q hq => hl q (by simp [hq]))
    unfold pieces at this ⊢
    rw [List.flatMap_cons, collapse_word ht.2, List.cons_append, collapse, if_pos h1, if_neg (by simp), splitFrom_word ht.2, List.nil_append, splitFrom, if_pos (Or.inl rfl),
      collapse_true_word h2, this]
    rfl

theorem intercalate_tab (x : Str) (l : List Str) : List.intercalate ['\t'] (x :: l) = x ++ l.flatMap (fun y => '\t' :: y) := by
  induction l generalizing x with
  | nil => simp [List.intercalate]
  | cons a as ih =>
    have := ih a
    simp only [List.intercalate] at this ⊢
    simp [this]

/-- the text of the log of a new benchmark -/
theorem log_text {pop : FMM.St F → Nat → Prop} {b : Bench} {time : Nat → Str} (t t' : Bench.St F) (h : Bench.Runs pop b time t t') (dims : List Nat)
    (hsh : t.w.grid.shape = Shape.mk' dims) (hb : t.runID + b.solvers.length * b.nruns < 2^32) (h0 : t.log = []) :
    ∃ (nums : List Str) (goal : Str) (num : Nat → Str), t'.log = b.name ++ (nums ++ [goal]).flatMap (fun y => '\t' :: y) ++
        (List.range (b.solvers.length * b.nruns)).flatMap (fun i => '\n' :: (num i ++ '\t' :: ((runNames b).getD i [] ++ '\t' :: time (t.runID + 1 + i)))) ∧
      List.Forall₂ Denotes nums (b.nruns :: dims.length :: dims ++ b.pts.length :: b.pts) ∧
      (if b.goal = 2^32 - 1 then goal = "nan".toList else Denotes goal b.goal) ∧ ∀ i < b.solvers.length * b.nruns, IsNumber (num i) := by
  obtain ⟨head, lines, e1, ⟨nums, goal, e2, e3, e4⟩, e5, e6⟩ := C45_log t t' h dims hsh hb
  have hN := C45_names b
  have hch : ∀ i, ∃ n : Str, i < b.solvers.length * b.nruns →
      lines[i]? = some (n ++ '\t' :: ((runNames b).getD i [] ++ '\t' :: time (t.runID + 1 + i))) ∧ IsNumber n := by
    intro i
    by_cases hi : i < b.solvers.length * b.nruns
    · have hr : (runNames b)[i]? = some ((runNames b).getD i []) := by
        rw [List.getD_eq_getElem?_getD, List.getElem?_eq_getElem (by rw [hN]; exact hi)]; rfl
      obtain ⟨l, l1, n, l2, l3, -, -⟩ := e6 i _ hr
      refine ⟨n, fun _ => ⟨by rw [l1, l2]; simp, l3⟩⟩
    · exact ⟨[], fun h => absurd h hi⟩
  choose n hn using hch
  refine ⟨nums, goal, n, ?_, e3, e4, fun i hi => (hn i hi).2⟩
  have hl : lines = (List.range (b.solvers.length * b.nruns)).map (fun i => n i ++ '\t' :: ((runNames b).getD i [] ++ '\t' :: time (t.runID + 1 + i))) := by
    apply List.ext_getElem?
    intro i
    by_cases hi : i < b.solvers.length * b.nruns
    · rw [(hn i hi).1, List.getElem?_map, List.getElem?_range hi]; rfl
    · rw [List.getElem?_eq_none (by rw [e5]; omega), List.getElem?_eq_none (by simp; omega)]
  rw [e1, e2, h0, List.nil_append, hl, List.flatMap_map, List.cons_append, intercalate_tab]

theorem piece_get (txt : List Str) (i : Nat) (hi : 0 < i) : piece txt i = txt[i - 1]? := if_neg (by omega)

/-- reading a log that consists of these words -/
theorem parse_words (num : Str → Option F) (nan : F) (nat : F → Option Nat) (hN : MatlabNumbers num nat) (file name goal : Str) (nums : List Str) (nruns : Nat)
    (dims pts : List Nat) (body : List Str) (htxt : pieces file = name :: (nums ++ goal :: body))
    (hnums : List.Forall₂ Denotes nums (nruns :: dims.length :: dims ++ pts.length :: pts)) (hlt : ∀ n ∈ nruns :: dims.length :: dims ++ pts.length :: pts, n < 2^32) :
    parseBenchmarkLog num nan nat file = (do
      let nexp ← rowCount (5 + dims.length + pts.length + body.length) (5 + dims.length + pts.length) 3
      let solvers ← (List.range nexp).mapM (fun i => body[i * 3 + 1]?)
      let times ← (List.range nexp).mapM (fun i => body[i * 3 + 2]?.map (str2double num nan))
      let groups ← rowCount nexp 0 nruns
      let exp ← (List.range groups).mapM (fun i => (piece solvers (i * nruns + 1)).map (fun s => (s, (times.drop (i * nruns)).take nruns)))
      some { name := name, nruns := nruns, ndims := dims.length, dimsize := dims.map ofNat, startpoints := pts.map ofNat, goalpoint := str2double num nan goal
             nexp := nexp, exp := exp }) := by
  set vals := nruns :: dims.length :: dims ++ pts.length :: pts with hvals
  have hvl : vals.length = 3 + dims.length + pts.length := by rw [hvals]; simp; omega
  have hl : nums.length = 3 + dims.length + pts.length := by rw [hnums.length_eq, hvl]
  have hval : ∀ k n : Nat, vals[k]? = some n → ∃ s, nums[k]? = some s ∧ num s = some (ofNat n) ∧ n < 2^32 := by
    intro k n hk
    have hk1 : k < vals.length := (List.getElem?_eq_some_iff.1 hk).1
    have hk2 : k < nums.length := by rw [hl, ← hvl]; exact hk1
    have hd := (List.forall₂_iff_get.1 hnums).2 k hk2 hk1
    have hn : vals[k] = n := (List.getElem?_eq_some_iff.1 hk).2
    simp only [List.get_eq_getElem, hn] at hd
    have hnlt := hlt n (List.mem_of_getElem? hk)
    exact ⟨nums[k], List.getElem?_eq_getElem hk2, hN.read _ _ hnlt hd, hnlt⟩
  set txt := pieces file with htx
  have hget : ∀ (k : Nat) s, nums[k]? = some s → piece txt (k + 2) = some s := by
    intro k s hk
    rw [piece_get _ _ (by omega), htxt, show k + 2 - 1 = k + 1 from rfl, List.getElem?_cons_succ, List.getElem?_append_left (List.getElem?_eq_some_iff.1 hk).1, hk]
  have hpv : ∀ k n : Nat, vals[k]? = some n → (piece txt (k + 2)).map (str2double num nan) = some (ofNat n) ∧
      (piece txt (k + 2)).bind (fun s => nat (str2double num nan s)) = some n := by
    intro k n hk
    obtain ⟨s, h1, h2, h3⟩ := hval k n hk
    rw [hget k s h1]
    simp only [Option.map_some, Option.bind_some, str2double, h2, Option.getD_some, hN.size n h3]
    exact ⟨trivial, trivial⟩
  have p1 : piece txt 1 = some name := by rw [piece_get _ _ (by omega), htxt]; rfl
  have p2 := (hpv 0 nruns rfl).2
  have p3 := (hpv 1 dims.length rfl).2
  have p4 := (hpv (2 + dims.length) pts.length (by
    rw [hvals, show 2 + dims.length = dims.length + 1 + 1 from by omega]
    simp)).2
  have q1 : (List.range dims.length).mapM (fun i => (piece txt (i + 1 + 3)).map (str2double num nan)) = some (dims.map ofNat) := by
    refine mapM_range _ _ _ (by simp) (fun i hi => ?_)
    have hi' : i < dims.length := by simpa using hi
    have := (hpv (i + 2) dims[i] (by
      rw [hvals]
      simp only [List.cons_append, List.getElem?_cons_succ]
      rw [List.getElem?_append_left hi', List.getElem?_eq_getElem hi'])).1
    rw [show i + 1 + 3 = i + 2 + 2 from rfl, this]
    simp
  have q2 : (List.range pts.length).mapM (fun i => (piece txt (4 + dims.length + (i + 1))).map (str2double num nan)) = some (pts.map ofNat) := by
    refine mapM_range _ _ _ (by simp) (fun i hi => ?_)
    have hi' : i < pts.length := by simpa using hi
    have := (hpv (dims.length + 3 + i) pts[i] (by
      rw [hvals, show dims.length + 3 + i = dims.length + i + 1 + 1 + 1 from by omega]
      simp only [List.cons_append, List.getElem?_cons_succ]
      rw [List.getElem?_append_right (by omega), show dims.length + i + 1 - dims.length = i + 1 from by omega, List.getElem?_cons_succ, List.getElem?_eq_getElem hi'])).1
    rw [show 4 + dims.length + (i + 1) = dims.length + 3 + i + 2 from by omega, this]
    simp
  have q3 : piece txt (5 + dims.length + pts.length) = some goal := by
    rw [piece_get _ _ (by omega), htxt, show 5 + dims.length + pts.length - 1 = nums.length + 1 from by omega, List.getElem?_cons_succ,
      List.getElem?_append_right (le_refl _)]
    simp
  have q4 : ∀ k : Nat, piece txt (5 + dims.length + pts.length + k + 1) = body[k]? := by
    intro k
    rw [piece_get _ _ (by omega), htxt, show 5 + dims.length + pts.length + k + 1 - 1 = (nums.length + (k + 1)) + 1 from by omega, List.getElem?_cons_succ,
      List.getElem?_append_right (by omega), show nums.length + (k + 1) - nums.length = k + 1 from by omega, List.getElem?_cons_succ]
  have q5 : txt.length = 5 + dims.length + pts.length + body.length := by
    rw [htxt]; simp only [List.length_cons, List.length_append]; omega
  show parsePieces num nan nat txt = _
  unfold parsePieces
  dsimp only
  rw [show (4 + dims.length) = 2 + dims.length + 2 from by omega] at q2
  simp only [p1, p2, p3, q1, Option.bind_eq_bind, Option.bind_some]
  rw [show (4 + dims.length) = 2 + dims.length + 2 from by omega, p4]
  simp only [q2, q3, q5, Option.bind_some, Option.map_some, q4, show ∀ i, 5 + dims.length + pts.length + i * 3 + 1 + 1 = 5 + dims.length + pts.length + (i * 3 + 1) + 1 from fun _ => rfl,
    show ∀ i, 5 + dims.length + pts.length + i * 3 + 1 + 2 = 5 + dims.length + pts.length + (i * 3 + 2) + 1 from fun _ => rfl]

theorem sp_tab : isSpace '\t' = true := by decide
theorem sp_nl : isSpace '\n' = true := by decide
theorem sp_sp : isSpace ' ' = true := by decide

/-- the pieces of a log whose names are words -/
theorem log_pieces (name goal : Str) (nums : List Str) (hname : Word name) (hnums : ∀ s ∈ nums, Word s) (hgoal : Word goal) (n : Nat) (l : Nat → List (Char × Str))
    (hl : ∀ i < n, ∀ p ∈ l i, isSpace p.1 = true ∧ Word p.2) :
    pieces (name ++ (nums ++ [goal]).flatMap (fun y => '\t' :: y) ++ (List.range n).flatMap (fun i => (l i).flatMap (fun p => p.1 :: p.2))) =
      name :: (nums ++ goal :: (List.range n).flatMap (fun i => (l i).map (·.2))) := by
  have := pieces_words name hname ((nums ++ [goal]).map (fun y => ('\t', y)) ++ (List.range n).flatMap l) (by
    intro p hp
    rcases List.mem_append.1 hp with h | h
    · obtain ⟨y, hy, rfl⟩ := List.mem_map.1 h
      refine ⟨sp_tab, ?_⟩
      rcases List.mem_append.1 hy with h' | h'
      · exact hnums y h'
      · rw [List.mem_singleton.1 h']; exact hgoal
    · obtain ⟨i, hi, h'⟩ := List.mem_flatMap.1 h
      exact hl i (List.mem_range.1 hi) p h')
  rw [List.flatMap_append, List.flatMap_map, List.flatMap_assoc, ← List.append_assoc] at this
  rw [this, List.map_append, List.map_map, List.map_flatMap]
  simp [Function.comp_def]

theorem mem_runNames {b : Bench} {n : Str} (h : n ∈ runNames b) : ∃ s ∈ b.solvers, s.2 = n := by
  obtain ⟨s, hs, h'⟩ := List.mem_flatMap.1 h
  exact ⟨s, hs, (List.mem_replicate.1 h').2.symm⟩

theorem runNames_get {b : Bench} {i j : Nat} {s : Nat × Str} (hi : b.solvers[i]? = some s) (hj : j < b.nruns) : (runNames b)[i * b.nruns + j]? = some s.2 := by
  unfold runNames
  rw [List.flatMap_def, flat_get _ b.nruns (by intro l hl; obtain ⟨x, _, rfl⟩ := List.mem_map.1 hl; simp) i j hj]
  simp [hi, hj]

theorem goal_word {b : Bench} {goal : Str} (h : if b.goal = 2^32 - 1 then goal = "nan".toList else Denotes goal b.goal) : Word goal := by
  split at h
  · subst h
    exact ⟨by decide, by decide⟩
  · exact Word.number h.1

theorem nums_word {nums : List Str} {vals : List Nat} (h : List.Forall₂ Denotes nums vals) : ∀ s ∈ nums, Word s := by
  intro s hs
  obtain ⟨k, hk, rfl⟩ := List.getElem_of_mem hs
  have := (List.forall₂_iff_get.1 h).2 k hk (by rw [← h.length_eq]; exact hk)
  exact Word.number this.1

theorem rowCount_three (h n : Nat) : rowCount (h + n * 3) h 3 = some n := by
  unfold rowCount
  rw [if_pos ⟨by omega, by decide, by omega⟩]
  congr 1
  omega

end Matlab

/-- **C77** (benchmark logs): from the log of a benchmark, `parseBenchmarkLog` recovers its name, the number of runs, the sizes of the grid, the initial points, the goal
and, for each solver, its name and the times of its runs, if no name is empty or contains white space and there is at least one run. -/
theorem C77_log (num : Str → Option F) (nan : F) (nat : F → Option Nat) (hN : MatlabNumbers num nat) (hnan : (num "nan".toList).getD nan = nan) (pop : FMM.St F → Nat → Prop) (b : Bench)
    (time : Nat → Str) (tval : Nat → F) (t t' : Bench.St F) (h : Bench.Runs pop b time t t') (dims : List Nat) (hsh : t.w.grid.shape = Shape.mk' dims)
    (hb : t.runID + b.solvers.length * b.nruns < 2^32) (h0 : t.log = []) (hruns : b.nruns ≠ 0)
    (hlt : b.nruns < 2^32 ∧ dims.length < 2^32 ∧ (∀ d ∈ dims, d < 2^32) ∧ b.pts.length < 2^32 ∧ (∀ p ∈ b.pts, p < 2^32) ∧ b.goal < 2^32)
    (hname : b.name ≠ [] ∧ ∀ c ∈ b.name, isSpace c = false) (hsolvers : ∀ s ∈ b.solvers, s.2 ≠ [] ∧ ∀ c ∈ s.2, isSpace c = false)
    (htime : ∀ k, ReadAs num (time k) (tval k)) :
    ∃ bm, parseBenchmarkLog num nan nat t'.log = some bm ∧ bm.name = b.name ∧ bm.nruns = b.nruns ∧ bm.ndims = dims.length ∧ bm.dimsize = dims.map ofNat ∧
      bm.startpoints = b.pts.map ofNat ∧ bm.goalpoint = (if b.goal = 2^32 - 1 then nan else ofNat b.goal) ∧ bm.nexp = b.solvers.length * b.nruns ∧
      bm.exp.length = b.solvers.length ∧
      ∀ i s, b.solvers[i]? = some s → bm.exp[i]? = some (s.2, (List.range b.nruns).map (fun j => tval (t.runID + 1 + (i * b.nruns + j)))) := by
  obtain ⟨nums, goal, id, e1, e2, e3, e4⟩ := log_text t t' h dims hsh hb h0
  have hNn := C45_names b
  set N := b.solvers.length * b.nruns with hNdef
  set nm : Nat → Str := fun i => (runNames b).getD i [] with hnm
  have hnmw : ∀ i < N, Word (nm i) := by
    intro i hi
    have : nm i ∈ runNames b := by
      rw [hnm]; simp only
      rw [List.getD_eq_getElem?_getD, List.getElem?_eq_getElem (by rw [hNn]; exact hi)]
      exact List.getElem_mem _
    obtain ⟨s, hs, h'⟩ := mem_runNames this
    rw [← h']; exact hsolvers s hs
  set body : List Str := ((List.range N).map (fun i => [id i, nm i, time (t.runID + 1 + i)])).flatten with hbody
  have htxt : pieces t'.log = b.name :: (nums ++ goal :: body) := by
    have := log_pieces b.name goal nums hname (nums_word e2) (goal_word e3) N
      (fun i => [('\n', id i), ('\t', nm i), ('\t', time (t.runID + 1 + i))]) (by
        intro i hi p hp
        simp only [List.mem_cons, List.not_mem_nil, or_false] at hp
        rcases hp with rfl | rfl | rfl
        · exact ⟨sp_nl, Word.number (e4 i hi)⟩
        · exact ⟨sp_tab, hnmw i hi⟩
        · exact ⟨sp_tab, (htime _).1, (htime _).2.1⟩)
    rw [e1]
    simp only [List.flatMap_cons, List.flatMap_nil, List.append_nil, List.map_cons, List.map_nil, List.cons_append, List.append_assoc] at this ⊢
    rw [this, hbody, List.flatMap_def]
  have hul : ∀ l ∈ (List.range N).map (fun i => [id i, nm i, time (t.runID + 1 + i)]), l.length = 3 := by
    intro l hl
    obtain ⟨i, _, rfl⟩ := List.mem_map.1 hl
    rfl
  have hbl : body.length = N * 3 := by rw [hbody, flat_length _ 3 hul]; simp
  have hbg : ∀ i j, i < N → j < 3 → body[i * 3 + j]? = [id i, nm i, time (t.runID + 1 + i)][j]? := by
    intro i j hi hj
    rw [hbody, flat_get _ 3 hul i j hj, List.getElem?_map, List.getElem?_range hi]; rfl
  have hp := parse_words num nan nat hN t'.log b.name goal nums b.nruns dims b.pts body htxt e2 (by
    intro n hn
    simp only [List.mem_cons, List.mem_append] at hn
    obtain ⟨l1, l2, l3, l4, l5, -⟩ := hlt
    rcases hn with (rfl | rfl | hn) | rfl | hn
    exacts [l1, l2, l3 n hn, l4, l5 n hn])
  have s1 : (List.range N).mapM (fun i => body[i * 3 + 1]?) = some (runNames b) := by
    refine mapM_range _ _ _ hNn (fun i hi => ?_)
    rw [hbg i 1 (by rw [← hNn]; exact hi) (by decide)]
    show some (nm i) = _
    rw [hnm]; simp only
    rw [List.getD_eq_getElem?_getD, List.getElem?_eq_getElem hi]; rfl
  have s2 : (List.range N).mapM (fun i => body[i * 3 + 2]?.map (str2double num nan)) = some ((List.range N).map (fun i => tval (t.runID + 1 + i))) := by
    refine mapM_range _ _ _ (by simp) (fun i hi => ?_)
    have hi' : i < N := by simpa using hi
    rw [hbg i 2 hi' (by decide)]
    show some (str2double num nan (time (t.runID + 1 + i))) = _
    unfold str2double
    rw [(htime _).2.2]
    simp
  have s3 : rowCount N 0 b.nruns = some b.solvers.length := by
    unfold rowCount
    rw [Nat.sub_zero, if_pos ⟨Nat.zero_le _, hruns, by rw [hNdef]; exact Nat.mul_mod_left _ _⟩, hNdef, Nat.mul_div_cancel _ (Nat.pos_of_ne_zero hruns)]
  set ex : List (Str × List F) := (List.range b.solvers.length).map (fun i => ((b.solvers.getD i (0, [])).2,
    (List.range b.nruns).map (fun j => tval (t.runID + 1 + (i * b.nruns + j))))) with hex
  have s4 : (List.range b.solvers.length).mapM (fun i => (piece (runNames b) (i * b.nruns + 1)).map
      (fun s => (s, (((List.range N).map (fun i => tval (t.runID + 1 + i))).drop (i * b.nruns)).take b.nruns))) = some ex := by
    refine mapM_range _ _ _ (by rw [hex]; simp) (fun i hi => ?_)
    have hi' : i < b.solvers.length := by rw [hex] at hi; simpa using hi
    rw [piece_get _ _ (by omega), Nat.add_sub_cancel]
    have := runNames_get (b := b) (List.getElem?_eq_getElem hi') (Nat.pos_of_ne_zero hruns)
    rw [Nat.add_zero] at this
    rw [this]
    simp only [Option.map_some, hex, List.getElem_map, List.getElem_range, Option.some.injEq, Prod.mk.injEq]
    constructor
    · rw [List.getD_eq_getElem?_getD, List.getElem?_eq_getElem hi']; rfl
    · have hle : i * b.nruns + b.nruns ≤ N := by
        rw [hNdef, ← Nat.succ_mul]; exact Nat.mul_le_mul_right _ hi'
      apply List.ext_getElem
      · simp; omega
      · intro j h1 h2
        simp
  refine ⟨{ name := b.name, nruns := b.nruns, ndims := dims.length, dimsize := dims.map ofNat, startpoints := b.pts.map ofNat, goalpoint := str2double num nan goal
            nexp := N, exp := ex }, ?_, rfl, rfl, rfl, rfl, rfl, ?_, rfl, ?_, ?_⟩
  · rw [hp, hbl, rowCount_three]
    simp only [Option.bind_eq_bind, Option.bind_some, s1, s2, s3, s4]
  · show str2double num nan goal = _
    unfold str2double
    split at e3
    next hg => rw [if_pos hg, e3]; exact hnan
    next hg => rw [if_neg hg, hN.read _ _ hlt.2.2.2.2.2 e3]; rfl
  · show ex.length = _
    rw [hex]; simp
  · intro i s hi
    have hi' : i < b.solvers.length := (List.getElem?_eq_some_iff.1 hi).1
    show ex[i]? = _
    rw [hex, List.getElem?_map, List.getElem?_range hi']
    simp [List.getD_eq_getElem?_getD, hi]

/-- **C77** fails for names with white space: a log of a benchmark with one solver whose name consists of two words cannot be read, for every positive number of runs. -/
theorem C77_refuted_names (num : Str → Option F) (nan : F) (nat : F → Option Nat) (hN : MatlabNumbers num nat) (pop : FMM.St F → Nat → Prop) (b : Bench)
    (time : Nat → Str) (tval : Nat → F) (t t' : Bench.St F) (h : Bench.Runs pop b time t t') (dims : List Nat) (hsh : t.w.grid.shape = Shape.mk' dims)
    (k : Nat) (u v : Str) (hs : b.solvers = [(k, u ++ ' ' :: v)]) (hb : t.runID + b.nruns < 2^32) (h0 : t.log = []) (hruns : b.nruns ≠ 0)
    (hlt : b.nruns < 2^32 ∧ dims.length < 2^32 ∧ (∀ d ∈ dims, d < 2^32) ∧ b.pts.length < 2^32 ∧ (∀ p ∈ b.pts, p < 2^32) ∧ b.goal < 2^32)
    (hname : b.name ≠ [] ∧ ∀ c ∈ b.name, isSpace c = false) (hu : u ≠ [] ∧ ∀ c ∈ u, isSpace c = false) (hv : v ≠ [] ∧ ∀ c ∈ v, isSpace c = false)
    (htime : ∀ k, ReadAs num (time k) (tval k)) :
    parseBenchmarkLog num nan nat t'.log = none := by
  have hS : b.solvers.length * b.nruns = b.nruns := by rw [hs]; simp
  obtain ⟨nums, goal, id, e1, e2, e3, e4⟩ := log_text t t' h dims hsh (by rw [hS]; exact hb) h0
  rw [hS] at e1 e4
  have hnm : ∀ i < b.nruns, (runNames b).getD i [] = u ++ ' ' :: v := by
    intro i hi
    have := runNames_get (b := b) (i := 0) (s := (k, u ++ ' ' :: v)) (by rw [hs]; rfl) hi
    rw [Nat.zero_mul, Nat.zero_add] at this
    rw [List.getD_eq_getElem?_getD, this]; rfl
  set body : List Str := ((List.range b.nruns).map (fun i => [id i, u, v, time (t.runID + 1 + i)])).flatten with hbody
  have htxt : pieces t'.log = b.name :: (nums ++ goal :: body) := by
    have := log_pieces b.name goal nums hname (nums_word e2) (goal_word e3) b.nruns
      (fun i => [('\n', id i), ('\t', u), (' ', v), ('\t', time (t.runID + 1 + i))]) (by
        intro i hi p hp
        simp only [List.mem_cons, List.not_mem_nil, or_false] at hp
        rcases hp with rfl | rfl | rfl | rfl
        · exact ⟨sp_nl, Word.number (e4 i hi)⟩
        · exact ⟨sp_tab, hu⟩
        · exact ⟨sp_sp, hv⟩
        · exact ⟨sp_tab, (htime _).1, (htime _).2.1⟩)
    rw [e1]
    simp only [List.flatMap_cons, List.flatMap_nil, List.append_nil, List.map_cons, List.map_nil, List.cons_append, List.append_assoc] at this ⊢
    rw [← List.flatMap_def] at hbody
    rw [hbody, ← this]
    congr 3
    rw [List.flatMap_def, List.flatMap_def]
    congr 1
    apply List.map_congr_left
    intro i hi
    rw [hnm i (List.mem_range.1 hi)]
    simp
  have hul : ∀ l ∈ (List.range b.nruns).map (fun i => [id i, u, v, time (t.runID + 1 + i)]), l.length = 4 := by
    intro l hl
    obtain ⟨i, _, rfl⟩ := List.mem_map.1 hl
    rfl
  have hbl : body.length = b.nruns * 4 := by rw [hbody, flat_length _ 4 hul]; simp
  have hp := parse_words num nan nat hN t'.log b.name goal nums b.nruns dims b.pts body htxt e2 (by
    intro n hn
    simp only [List.mem_cons, List.mem_append] at hn
    obtain ⟨l1, l2, l3, l4, l5, -⟩ := hlt
    rcases hn with (rfl | rfl | hn) | rfl | hn
    exacts [l1, l2, l3 n hn, l4, l5 n hn])
  rw [hp, hbl]
  rcases hr : rowCount (5 + dims.length + b.pts.length + b.nruns * 4) (5 + dims.length + b.pts.length) 3 with _ | n
  · rfl
  · have hn : n * 3 = b.nruns * 4 := by
      unfold rowCount at hr
      split at hr
      next hc => have := Option.some.inj hr; omega
      next => cases hr
    have hg : rowCount n 0 b.nruns = none := by
      unfold rowCount
      rw [if_neg]
      rintro ⟨_, _, hm⟩
      rw [Nat.sub_zero] at hm
      obtain ⟨q, hq⟩ := Nat.dvd_of_mod_eq_zero hm
      rw [hq] at hn
      have hpos := Nat.pos_of_ne_zero hruns
      have : q * 3 = 4 := Nat.eq_of_mul_eq_mul_left hpos (by rw [← hn]; ring)
      omega
    simp only [Option.bind_eq_bind, Option.bind_some, hg, Option.bind_none]
    cases (List.range n).mapM (fun i => body[i * 3 + 1]?) with
    | none => rfl
    | some x =>
      simp only [Option.bind_some]
      cases (List.range n).mapM (fun i => body[i * 3 + 2]?.map (str2double num nan)) <;> rfl

namespace Matlab

/-- numbers printed and read as decimal digits -/
noncomputable def exNum (s : Str) : Option XR := if s ≠ [] ∧ ∀ c ∈ s, c ∈ "0123456789".toList then some (ofNat (readNat s)) else none

open Classical in
/-- the natural number that a number is -/
noncomputable def exNat (x : XR) : Option Nat := if h : ∃ n : Nat, x = ofNat n then some h.choose else none

open Classical in
/-- the decimal digits of a natural number -/
noncomputable def exFmt (x : XR) : Str := if h : ∃ n : Nat, x = ofNat n then decimal h.choose else "nan".toList

theorem ofNat_eq (n : Nat) : (ofNat n : XR) = XR.fin (n:ℝ) := by
  show XR.fin (((n:ℤ):ℝ) / ((1:ℕ):ℝ)) = _
  simp

theorem ofNat_inj {m n : Nat} (h : (ofNat m : XR) = ofNat n) : m = n := by
  have : (XR.fin (m:ℝ)) = XR.fin (n:ℝ) := by rw [← ofNat_eq, ← ofNat_eq]; exact h
  exact Nat.cast_injective (XR.fin.inj this)

theorem exNumbers : MatlabNumbers exNum exNat := by
  refine ⟨fun s n _ h => ?_, fun n _ => ?_⟩
  · unfold exNum
    rw [if_pos (show s ≠ [] ∧ ∀ c ∈ s, c ∈ "0123456789".toList from h.1), h.2]
  · unfold exNat
    have hex : ∃ m : Nat, (ofNat n : XR) = ofNat m := ⟨n, rfl⟩
    rw [dif_pos hex, ← ofNat_inj hex.choose_spec]

theorem exFmt_nat (n : Nat) : exFmt (ofNat n) = decimal n := by
  unfold exFmt
  have hex : ∃ m : Nat, (ofNat n : XR) = ofNat m := ⟨n, rfl⟩
  rw [dif_pos hex, ← ofNat_inj hex.choose_spec]

theorem exRead (n : Nat) (h : n < 2^32) : ReadAs exNum (exFmt (ofNat n)) (ofNat n) := by
  rw [exFmt_nat]
  exact ⟨(word_decimal n).1, (word_decimal n).2, num_decimal exNumbers h⟩

/-- The hypotheses of the theorems about paths can be met: a path of two points in a 3 x 2 grid, and one of three points with velocities, which cannot be read. -/
example : (∃ M, parsepath exNum exNat (savePath exFmt (Grid.create [3,2] (ofNat 1) (0, 0) : Grid XR) [[ofNat 0, ofNat 1], [ofNat 2, ofNat 1]]) = some M ∧ M.rows = 2 ∧
      M.get 1 0 = (XR.fin 3)) ∧
    parsepathvel exNum exNat (savePathVelocity exFmt (Grid.create [3,2] (ofNat 1) (0, 0) : Grid XR)
      [([ofNat 0, ofNat 1], ofNat 1), ([ofNat 1, ofNat 1], ofNat 1), ([ofNat 2, ofNat 1], ofNat 1)]) = none := by
  have r0 := exRead 0 (by norm_num)
  have r1 := exRead 1 (by norm_num)
  have r2 := exRead 2 (by norm_num)
  constructor
  · obtain ⟨M, h1, h2, h3, h4⟩ := C77_path exNum exNat exNumbers exFmt id (Grid.create [3,2] (ofNat 1) (0, 0) : Grid XR) [3,2] [[ofNat 0, ofNat 1], [ofNat 2, ofNat 1]]
      (ofNat 1) rfl (by simp) (by simp) (by simp) r1 (by
        intro p hp
        simp only [List.mem_cons, List.not_mem_nil, or_false] at hp
        rcases hp with rfl | rfl <;> refine ⟨rfl, fun x hx => ?_⟩ <;> simp only [List.mem_cons, List.not_mem_nil, or_false] at hx <;> rcases hx with rfl | rfl
        exacts [r0, r1, r2, r1])
    refine ⟨M, h1, h2, ?_⟩
    rw [h4 1 [ofNat 2, ofNat 1] 0 (ofNat 2) rfl rfl]
    rw [id, ofNat_eq, ofNat_eq]
    show XR.fin (((2:ℕ):ℝ) + ((1:ℕ):ℝ)) = XR.fin 3
    norm_num
  · have := (C77_refuted_pathvel exNum exNat exNumbers exFmt id (Grid.create [3,2] (ofNat 1) (0, 0) : Grid XR) [3,2]
      [([ofNat 0, ofNat 1], ofNat 1), ([ofNat 1, ofNat 1], ofNat 1), ([ofNat 2, ofNat 1], ofNat 1)]
      (ofNat 1) rfl (by simp) (by simp) (by simp) r1 (by
        intro p hp
        simp only [List.mem_cons, List.not_mem_nil, or_false] at hp
        rcases hp with rfl | rfl | rfl <;> refine ⟨rfl, fun x hx => ?_, r1⟩ <;> simp only [List.mem_cons, List.not_mem_nil, or_false] at hx <;> rcases hx with rfl | rfl
        exacts [r0, r1, r1, r1, r2, r1]) (by simp)).1
    exact this (by decide)

/-- The hypotheses of the theorems about grids can be met: a new 3 x 2 grid with leaf size 1. -/
example : ∃ p, parseGrid exNum exNat (saveVelocities exFmt (Grid.create [3,2] (ofNat 1) (0, 0) : Grid XR)) = some p ∧ p.cells.dims = [2,3] ∧
    p.cells.get [1,2] = ofNat 1 := by
  have hv : ∀ i, (Grid.create [3,2] (ofNat 1) (0, 0) : Grid XR).vel i = ofNat 1 := by
    intro i
    rw [ofNat_eq]
    show XR.fin 1 = XR.fin ((1:ℕ):ℝ)
    simp
  obtain ⟨p, h1, -, -, -, -, h2, -, h3⟩ := C77_velocities exNum exNat exNumbers exFmt (fun _ => ofNat 1) (Grid.create [3,2] (ofNat 1) (0, 0) : Grid XR) [3,2] (ofNat 1) rfl
    ⟨by simp, by simp, by simp⟩ (by simp) (exRead 1 (by norm_num)) (fun i _ => by rw [hv]; exact exRead 1 (by norm_num))
  refine ⟨p, h1, h2 rfl, ?_⟩
  have := h3 [2,1] (by rw [inBox_cons, inBox_cons]; simp [InBox])
  simpa using this

theorem exFor : List.Forall₂ Denotes ["2".toList, "2".toList, "3".toList, "2".toList, "1".toList, "0".toList] (2 :: [3,2].length :: [3,2] ++ [0].length :: [0]) := by
  repeat' constructor
  all_goals decide

/-- A text with the hypotheses of `C77_log` is read: one solver, two runs. -/
example : ∃ bm, parseBenchmarkLog exNum (XR.nan) exNat "bm\t2\t2\t3\t2\t1\t0\tnan\n0001\tFMM\t7\n0002\tFMM\t5".toList = some bm ∧ bm.nexp = 2 := by
  have h := parse_words exNum XR.nan exNat exNumbers "bm\t2\t2\t3\t2\t1\t0\tnan\n0001\tFMM\t7\n0002\tFMM\t5".toList "bm".toList "nan".toList
    ["2".toList, "2".toList, "3".toList, "2".toList, "1".toList, "0".toList] 2 [3,2] [0] ["0001".toList, "FMM".toList, "7".toList, "0002".toList, "FMM".toList, "5".toList]
    (by decide) exFor (by simp)
  exact ⟨_, h, rfl⟩

end Matlab
end FMV
