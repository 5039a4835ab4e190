import Verif.Spec.Program
import Verif.Props.CFG
import Verif.Props.Geometry
import Verif.Props.IO
import Verif.Props.Image
/-!
# C68: `fm_benchmark` runs the problem its configuration file describes
-/
namespace FMV.Program
open Arith Console CFG Spec Shape
variable {F : Type} [Arith F]

theorem options_of {f : CfgFile} {stem : Str} {k : String} {dflt v : Str} (h : Says f k dflt v) (hd : default stem k.toList = some dflt) :
    options stem f k.toList = some v := by
  unfold options
  rcases h with h | ⟨h, rfl⟩
  · rw [h]
  · rw [h]; exact hd

theorem text_of {f : CfgFile} {stem : Str} {k : String} {dflt v : Str} (h : Says f k dflt v) (hd : default stem k.toList = some dflt) :
    text (options stem f) k = v := by
  unfold text; rw [options_of h hd]; rfl

theorem numbers_cast {L : CFG.Lex F} {s : Str} {ns : List Nat} (h : Numbers L s ns) : splitAndCast L.uns ns.length s = some ns := by
  obtain ⟨l, h1, h2⟩ := h
  have := C43_coordinates L.uns s l h1 ns h2
  have e : l.length = ns.length := by simpa using congrArg List.length h2
  rwa [e] at this

theorem not_nan {L : CFG.Lex F} {s : Str} {ns : List Nat} (h : Numbers L s ns) (h2 : 2 ≤ ns.length) : s ≠ "nan".toList := by
  obtain ⟨l, h1, h3⟩ := h
  have e : l.length = ns.length := by simpa using congrArg List.length h3
  intro hs
  obtain ⟨a, b, l', rfl⟩ : ∃ a b l', l = a :: b :: l' := by
    match l, e with
    | [], e => simp at e; omega
    | [a], e => simp at e; omega
    | a :: b :: l', _ => exact ⟨a, b, l', rfl⟩
  have : ',' ∈ s := by rw [h1.text]; simp [List.intercalate, List.intersperse]
  rw [hs] at this
  exact absurd this (by decide)

theorem fails_not {L : CFG.Lex F} {lines : List (Str × Str)} {ms : List (Made F)} (hl : lines.length = ms.length)
    (h : ∀ i (h1 : i < lines.length) (h2 : i < ms.length), ∀ o, Round L lines[i].1 lines[i].2 o ↔ o = .add ms[i]) (e : End F) : ¬ Fails L lines e := by
  rintro ⟨l1, n, p, l2, ms', hs, -, hr⟩
  have hi : l1.length < lines.length := by rw [hs]; simp
  have h0 := h l1.length hi (by omega)
  have e1 : lines[l1.length] = (n, p) := by simp [hs]
  rw [e1] at h0
  rcases hr with ⟨hr, -⟩ | ⟨hr | hr, -⟩ <;> · have := (h0 _).1 hr; cases this

/-- `main` up to the problem -/
theorem main_reaches (E : Env F) (f : CfgFile) (hcfg : E.cfg = some f) (argc : Nat) (ha : 2 ≤ argc) {nd : Nat} {h : F} {start : List Nat} {goal : Option (List Nat)} {nr sg : Nat}
    {name : Str} (D : Settings E f nd h start goal nr sg name) (ms : List (Made F)) (hl : (readSolvers f.unr).length = ms.length)
    (hr : ∀ i (h1 : i < (readSolvers f.unr).length) (h2 : i < ms.length), ∀ o, Round E.lex (readSolvers f.unr)[i].1 (readSolvers f.unr)[i].2 o ↔ o = .add ms[i]) (o : End F) :
    Main E argc o ↔ o = problem E (options E.stem f) nd ms (fun pts goal => ⟨(List.range ms.length).zip (ms.map Made.name), pts, goal, nr, sg, name⟩) := by
  unfold Main
  rw [if_neg (by omega), hcfg]
  dsimp only
  obtain ⟨s, hs, -⟩ := D.start
  rw [if_neg (by rw [hs]; simp), if_neg (by rw [text_of D.cell rfl]; simp)]
  obtain ⟨s1, hs1, hu1⟩ := D.ndims
  rw [text_of hs1 rfl, hu1]
  dsimp only
  rw [if_pos D.two_or_three]
  unfold Configure
  dsimp only
  obtain ⟨s2, hs2, hu2⟩ := D.save
  obtain ⟨s3, hs3, hu3⟩ := D.runs
  rw [text_of hs2 rfl, text_of hs3 rfl, hu2, hu3, text_of D.name rfl]
  dsimp only
  have hc := C44_order E.lex _ ms hl hr
  constructor
  · rintro (⟨ms', h1, h2⟩ | h1)
    · rw [(hc ms').1 h1] at h2; exact h2
    · exact absurd h1 (fails_not hl hr o)
  · rintro rfl; exact Or.inl ⟨ms, (hc ms).2 rfl, rfl⟩

/-- the end of `configure`, once the grid is there -/
theorem problem_eq (E : Env F) (f : CfgFile) {nd : Nat} {h : F} {start : List Nat} {goal : Option (List Nat)} {nr sg : Nat} {name : Str}
    (D : Settings E f nd h start goal nr sg name) (hst : start.length = nd) (hgo : ∀ c, goal = some c → c.length = nd) (ms : List (Made F)) (mk : List Nat → Nat → Bench) (g0 : Grid F)
    (hg : makeGrid E (options E.stem f) nd = .ok g0) :
    problem E (options E.stem f) nd ms mk =
      .run (mk [g0.shape.coord2idx start] (goal.elim noGoal g0.shape.coord2idx)) ms { g0 with leaf := h } := by
  unfold problem
  rw [hg]
  dsimp only
  obtain ⟨s1, hs1, hu1⟩ := D.leaf
  obtain ⟨s2, hs2, hu2⟩ := D.start
  obtain ⟨s3, hs3, hu3⟩ := D.goal
  have t2 : text (options E.stem f) "problem.start" = s2 := by unfold text options; rw [hs2]; rfl
  have n2 : splitAndCast E.lex.uns nd s2 = some start := by have := numbers_cast hu2; rwa [hst] at this
  rw [text_of hs1 rfl, hu1, t2, n2, text_of hs3 rfl]
  dsimp only
  cases goal with
  | none =>
    dsimp only at hu3
    rw [if_pos hu3]
    rfl
  | some c =>
    dsimp only at hu3
    have hcl := hgo c rfl
    have h2 : 2 ≤ c.length := by rcases D.two_or_three with e | e <;> omega
    rw [if_neg (not_nan hu3 h2)]
    have n3 : splitAndCast E.lex.uns nd s3 = some c := by have := numbers_cast hu3; rwa [hcl] at this
    rw [n3]
    rfl

/-- `main` up to `b.run()`, once the grid is there -/
theorem main_run (E : Env F) (f : CfgFile) (hcfg : E.cfg = some f) (argc : Nat) (ha : 2 ≤ argc) {nd : Nat} {h : F} {start : List Nat} {goal : Option (List Nat)} {nr sg : Nat}
    {name : Str} (D : Settings E f nd h start goal nr sg name) (hst : start.length = nd) (hgo : ∀ c, goal = some c → c.length = nd) (ms : List (Made F))
    (hl : (readSolvers f.unr).length = ms.length)
    (hr : ∀ i (h1 : i < (readSolvers f.unr).length) (h2 : i < ms.length), ∀ o, Round E.lex (readSolvers f.unr)[i].1 (readSolvers f.unr)[i].2 o ↔ o = .add ms[i]) (g0 : Grid F)
    (hg : makeGrid E (options E.stem f) nd = .ok g0) (o : End F) :
    Main E argc o ↔ o = .run ⟨(List.range ms.length).zip (ms.map Made.name), [g0.shape.coord2idx start], goal.elim noGoal g0.shape.coord2idx, nr, sg, name⟩ ms { g0 with leaf := h } := by
  rw [main_reaches E f hcfg argc ha D ms hl hr o, problem_eq E f D hst hgo ms _ _ hg]

/-- **C68** for a configuration that describes a problem on an empty map: `fm_benchmark` runs, with the solvers of the solver lines, numbered and named in file order, the benchmark from
the cell with the start coordinates to the cell with the goal coordinates (or without goal), with the number of runs, grids to save and name it says, on a clean grid of the given
sizes and leaf size without obstacles, on which every cell has speed 1. -/
theorem _root_.FMV.C68_described_partial (E : Env F) (f : CfgFile) (hcfg : E.cfg = some f) (argc : Nat) (ha : 2 ≤ argc) (dims : List Nat) (hf : Fits dims (2^32)) (h : F)
    (start : List Nat) (goal : Option (List Nat)) (nr sg : Nat) (name : Str) (D : Describes E f dims h start goal nr sg name) (hin : InBox dims start)
    (hgin : ∀ c, goal = some c → InBox dims c) (ms : List (Made F)) (hl : (readSolvers f.unr).length = ms.length)
    (hr : ∀ i (h1 : i < (readSolvers f.unr).length) (h2 : i < ms.length), ∀ o, Round E.lex (readSolvers f.unr)[i].1 (readSolvers f.unr)[i].2 o ↔ o = .add ms[i]) :
    ∃ (b : Bench) (g : Grid F), (∀ o, Main E argc o ↔ o = .run b ms g) ∧
      b.nruns = nr ∧ b.saveGrid = sg ∧ b.name = name ∧ b.pts = [rowMajor dims start] ∧ b.goal = (match goal with | none => 2^32 - 1 | some c => rowMajor dims c) ∧
      b.solvers.length = ms.length ∧ (∀ (i : Nat) (m : Made F), ms[i]? = some m → b.solvers[i]? = some (i, m.name)) ∧
      g.shape.dims = dims ∧ g.size = dims.prod ∧ g.leaf = h ∧ g.clean = true ∧ g.occupied = [] ∧
      ∀ i, i < dims.prod → g.cells i = { value := inf, occupancy := one, hValue := zero, state := .opn, bucket := 0, index := i } := by
  have hg : makeGrid E (options E.stem f) dims.length = .ok ((newGrid E).resize dims) := by
    unfold makeGrid
    have e1 : options E.stem f "grid.file".toList = none := by unfold options; rw [D.file]; rfl
    have e2 : options E.stem f "grid.text".toList = none := by unfold options; rw [D.text]; rfl
    obtain ⟨s, hs, hn⟩ := D.size
    rw [e1, e2]
    dsimp only
    rw [text_of hs rfl, numbers_cast hn]
  refine ⟨_, _, main_run E f hcfg argc ha D.toSettings hin.1 (fun c hc => (hgin c hc).1) ms hl hr _ hg, ?_⟩
  · have es : ((newGrid E).resize dims).shape = Shape.mk' dims := rfl
    refine ⟨rfl, rfl, rfl, ?_, ?_, by simp, ?_, rfl, mk'_ncells hf, rfl, rfl, rfl, ?_⟩
    · rw [es, (C01_coord_roundtrip dims hf start hin).2.1]
    · cases goal with
      | none => rfl
      | some c => exact (C01_coord_roundtrip dims hf c (hgin c rfl)).2.1
    · intro i m hm
      have hi : i < ms.length := by
        by_contra hc
        rw [List.getElem?_eq_none (by omega)] at hm; cases hm
      rw [List.getElem?_eq_getElem hi] at hm
      injection hm with hm
      dsimp only
      rw [List.getElem?_eq_getElem (by simpa using hi)]
      simp [hm]
    · intro i _; rfl

/-- **C68** for a configuration with an image (two dimensions): the map is the one of the image (C37), with the leaf size of the configuration. -/
theorem _root_.FMV.C68_image_partial (E : Env F) (f : CfgFile) (hcfg : E.cfg = some f) (argc : Nat) (ha : 2 ≤ argc) (h : F) (start : List Nat) (goal : Option (List Nat)) (nr sg : Nat) (name : Str)
    (D : Settings E f 2 h start goal nr sg name) (path : Str) (im : IO.Img F) (hp : f.set "grid.file".toList = some path) (him : E.img path = some im) (hf : Fits [im.w, im.h] (2^32))
    (hin : InBox [im.w, im.h] start) (hgin : ∀ c, goal = some c → InBox [im.w, im.h] c) (ms : List (Made F)) (hl : (readSolvers f.unr).length = ms.length)
    (hr : ∀ i (h1 : i < (readSolvers f.unr).length) (h2 : i < ms.length), ∀ o, Round E.lex (readSolvers f.unr)[i].1 (readSolvers f.unr)[i].2 o ↔ o = .add ms[i]) :
    ∃ (b : Bench) (g : Grid F), (∀ o, Main E argc o ↔ o = .run b ms g) ∧ b.nruns = nr ∧ b.saveGrid = sg ∧ b.name = name ∧
      b.pts = [rowMajor [im.w, im.h] start] ∧ b.goal = (match goal with | none => 2^32 - 1 | some c => rowMajor [im.w, im.h] c) ∧
      (∀ (i : Nat) (m : Made F), ms[i]? = some m → b.solvers[i]? = some (i, m.name)) ∧
      g.shape.dims = [im.w, im.h] ∧ g.leaf = h ∧ g.clean = true ∧
      (∀ x y, x < im.w → y < im.h → g.vel (rowMajor [im.w, im.h] [x, im.h - 1 - y]) = div (im.px x y) (ofNat 255)) ∧
      (∀ i, i ∈ g.occupied ↔ i < im.w * im.h ∧ g.occ i = true) ∧ (∀ i < im.w * im.h, g.value i = inf ∧ g.state i = .opn) := by
  have hlt : im.w * im.h < 2^32 := by simpa using hf.lt
  have hw : im.w < 2^32 := by
    have h1 : 0 < im.h := hf.pos _ (by simp)
    have : im.w * 1 ≤ im.w * im.h := Nat.mul_le_mul_left _ h1
    omega
  have hcl : (IO.loadMapFromImg im (newGrid E)).clean = true := by
    have key : ∀ (l : List (Nat × Nat)) (g : Grid F) (obs : List Nat), (IO.imgCells im l g obs).1.clean = g.clean := by
      intro l
      induction l with
      | nil => intro g obs; rfl
      | cons p ps ih => intro g obs; rw [IO.imgCells, ih]; rfl
    show (IO.imgCells im _ _ _).1.clean = true
    rw [key]; rfl
  have hg : makeGrid E (options E.stem f) 2 = .ok (IO.loadMapFromImg im (newGrid E)) := by
    unfold makeGrid
    have e1 : options E.stem f "grid.file".toList = some path := by unfold options; rw [hp]
    rw [e1]
    dsimp only
    rw [him]
    rfl
  obtain ⟨es, -, ev, ei, eo, -⟩ := C37_load im (newGrid E) hw hlt
  refine ⟨_, _, main_run E f hcfg argc ha D hin.1 (fun c hc => (hgin c hc).1) ms hl hr _ hg, ?_⟩
  · refine ⟨rfl, rfl, rfl, ?_, ?_, ?_, by rw [es]; rfl, rfl, hcl, ?_, eo, ei⟩
    · rw [es, (C01_coord_roundtrip _ hf start hin).2.1]
    · cases goal with
      | none => rfl
      | some c => show Shape.coord2idx _ c = _; rw [es, (C01_coord_roundtrip _ hf c (hgin c rfl)).2.1]
    · intro i m hm
      have hi : i < ms.length := by
        by_contra hc
        rw [List.getElem?_eq_none (by omega)] at hm; cases hm
      rw [List.getElem?_eq_getElem hi] at hm
      injection hm with hm
      dsimp only
      rw [List.getElem?_eq_getElem (by simpa using hi)]
      simp [hm]
    · intro x y hx hy
      have hb : InBox [im.w, im.h] [x, im.h - 1 - y] := ⟨rfl, by
        intro k hk
        have : k = 0 ∨ k = 1 := by simp at hk; omega
        rcases this with rfl | rfl
        · exact hx
        · show im.h - 1 - y < im.h; omega⟩
      rw [← (C01_coord_roundtrip _ hf _ hb).2.1, ← C37_pixel_coordinates im.w im.h x y hx hy hlt]
      exact ev x y hx hy

/-! ## What the program accepts although it describes no problem -/

/-- An unreadable configuration file is reported by the exit code 0, the code for success. -/
theorem _root_.FMV.C68_refuted_exit_code (E : Env F) (hcfg : E.cfg = none) (argc : Nat) (ha : 2 ≤ argc) (o : End F) : Main E argc o ↔ o = .exit 0 := by
  unfold Main
  rw [if_neg (by omega), hcfg]

/-- Without an argument the program ends with the exit code 1. -/
theorem _root_.FMV.C68_usage (E : Env F) (argc : Nat) (ha : argc < 2) (o : End F) : Main E argc o ↔ o = .exit 1 := by
  unfold Main
  rw [if_pos ha]

/-- A configuration for more than three dimensions (or one) is not rejected: the program does nothing and reports success. -/
theorem _root_.FMV.C68_refuted_dimensions (E : Env F) (f : CfgFile) (hcfg : E.cfg = some f) (argc : Nat) (ha : 2 ≤ argc) (hs : f.set "problem.start".toList ≠ none)
    (hc : Says f "grid.cell" "FMCell".toList "FMCell".toList) (s : Str) (n : Nat) (hn : Says f "grid.ndims" "2".toList s) (hu : E.lex.uns s = some n) (h2 : n ≠ 2) (h3 : n ≠ 3)
    (o : End F) : Main E argc o ↔ o = .exit 0 := by
  unfold Main
  rw [if_neg (by omega), hcfg]
  dsimp only
  rw [if_neg hs, if_neg (by rw [text_of hc rfl]; simp), text_of hn rfl, hu]
  dsimp only
  rw [if_neg (by omega)]

/-- **C68 refuted: coordinates out of range are not rejected.**  On a map of `w × h` cells with a start `(x, y)` to the right of the map (`x ≥ w`), the benchmark is run from another cell,
the one with coordinates `(x mod w, y + x / w)` (if that row exists). -/
theorem _root_.FMV.C68_refuted_range (E : Env F) (f : CfgFile) (hcfg : E.cfg = some f) (argc : Nat) (ha : 2 ≤ argc) (w hh : Nat) (hf : Fits [w, hh] (2^32)) (h : F)
    (x y : Nat) (goal : Option (List Nat)) (nr sg : Nat) (name : Str) (D : Describes E f [w, hh] h [x, y] goal nr sg name) (hy : y + x / w < hh)
    (hgin : ∀ c, goal = some c → InBox [w, hh] c) (ms : List (Made F)) (hl : (readSolvers f.unr).length = ms.length)
    (hr : ∀ i (h1 : i < (readSolvers f.unr).length) (h2 : i < ms.length), ∀ o, Round E.lex (readSolvers f.unr)[i].1 (readSolvers f.unr)[i].2 o ↔ o = .add ms[i]) :
    ∃ (b : Bench) (g : Grid F), (∀ o, Main E argc o ↔ o = .run b ms g) ∧ g.shape.dims = [w, hh] ∧ b.pts = [rowMajor [w, hh] [x % w, y + x / w]] := by
  have hg : makeGrid E (options E.stem f) 2 = .ok ((newGrid E).resize [w, hh]) := by
    unfold makeGrid
    have e1 : options E.stem f "grid.file".toList = none := by unfold options; rw [D.file]; rfl
    have e2 : options E.stem f "grid.text".toList = none := by unfold options; rw [D.text]; rfl
    obtain ⟨s, hs, hn⟩ := D.size
    have n1 := numbers_cast hn
    rw [e1, e2]
    dsimp only
    rw [text_of hs rfl]
    rw [show [w, hh].length = 2 from rfl] at n1
    rw [n1]
  have hw : 0 < w := hf.pos _ (by simp)
  have hlt : w * hh < 2^32 := by simpa using hf.lt
  refine ⟨_, _, main_run E f hcfg argc ha D.toSettings rfl (fun c hc => (hgin c hc).1) ms hl hr _ hg, ?_⟩
  · refine ⟨rfl, ?_⟩
    have es : ((newGrid E).resize [w, hh]).shape = Shape.mk' [w, hh] := rfl
    have hdm := Nat.div_add_mod x w
    have hwh : w < 2^32 := by
      have h1 : 0 < hh := hf.pos _ (by simp)
      have : w * 1 ≤ w * hh := Nat.mul_le_mul_left _ h1
      omega
    have hd := (IO.mk2_d hwh hlt).1
    dsimp only
    rw [es]
    congr 1
    show (Shape.mk' [w, hh]).coord2idxLoop 1 [y] x = x % w + w * ((y + x / w) + hh * 0)
    simp only [Shape.coord2idxLoop, hd]
    show u32 (x + u32 (y * w)) = _
    have h3 : w * (y + x / w + 1) ≤ w * hh := Nat.mul_le_mul_left _ hy
    have h4 : x % w < w := Nat.mod_lt _ hw
    have e5 : w * (y + x / w + 1) = y * w + w * (x / w) + w := by ring
    have e6 : w * (y + x / w + hh * 0) = y * w + w * (x / w) := by ring
    unfold u32
    rw [Nat.mod_eq_of_lt (a := y * w) (by omega), Nat.mod_eq_of_lt (by omega)]
    omega

/-- **C68 refuted: missing coordinates are not rejected.**  A start given by a single number `x` on a two-dimensional map is taken as `(x, x)`. -/
theorem _root_.FMV.C68_refuted_few (L : CFG.Lex F) (s : Str) (hs : ',' ∉ s) (x : Nat) (hx : L.uns s = some x) : splitAndCast L.uns 2 s = some [x, x] := by
  unfold splitAndCast
  have h1 : getline ⟨s, true⟩ [] = (⟨[], false⟩, s) := by
    have := getline_last (x := s) hs []
    simpa [List.intercalate] using this
  simp only [castLoop, h1, hx, getline_bad]
  rfl

/-- **C68 refuted: the leaf size of a map file is ignored.**  With a `grid.text` map (which contains the leaf size) and no `grid.leafsize`, the benchmark runs with the leaf size 1, whatever
the file says. -/
theorem _root_.FMV.C68_refuted_leaf (E : Env F) (f : CfgFile) (hcfg : E.cfg = some f) (argc : Nat) (ha : 2 ≤ argc) (h : F) (start : List Nat) (goal : Option (List Nat)) (nr sg : Nat)
    (name : Str) (nd : Nat) (D : Settings E f nd h start goal nr sg name) (path : Str) (hp : f.set "grid.file".toList = none) (ht : f.set "grid.text".toList = some path) (g0 : Grid F)
    (hload : IO.loadMapFromText E.conv nd E.ljunk (E.txt path) (newGrid E) = .returned 1 g0) (hst : start.length = nd) (hgo : ∀ c, goal = some c → c.length = nd)
    (hnl : f.set "grid.leafsize".toList = none) (ms : List (Made F)) (hl : (readSolvers f.unr).length = ms.length)
    (hr : ∀ i (h1 : i < (readSolvers f.unr).length) (h2 : i < ms.length), ∀ o, Round E.lex (readSolvers f.unr)[i].1 (readSolvers f.unr)[i].2 o ↔ o = .add ms[i]) :
    E.lex.dbl "1".toList = some h ∧
    ∃ b : Bench, ∀ o, Main E argc o ↔ o = .run b ms { g0 with leaf := h } := by
  have hg : makeGrid E (options E.stem f) nd = .ok g0 := by
    unfold makeGrid
    have e1 : options E.stem f "grid.file".toList = none := by unfold options; rw [hp]; rfl
    have e2 : options E.stem f "grid.text".toList = some path := by unfold options; rw [ht]
    rw [e1, e2]
    dsimp only
    rw [hload]
    rfl
  refine ⟨?_, _, main_run E f hcfg argc ha D hst hgo ms hl hr _ hg⟩
  · obtain ⟨s, hs | ⟨-, rfl⟩, hu⟩ := D.leaf
    · rw [hnl] at hs; cases hs
    · exact hu

/-- **C68**: start coordinates that are not numbers end the program with an exception; no benchmark is run. -/
theorem _root_.FMV.C68_rejects_text (E : Env F) (f : CfgFile) (argc : Nat) (s : Str) (hs : f.set "problem.start".toList = some s) (l : List Str) (hi : Items s l) (x : Str)
    (hx : x ∈ l.take 2) (hb : E.lex.uns x = none) (hcfg : E.cfg = some f) (b : Bench) (ms : List (Made F)) (g : Grid F) : ¬ Main E argc (.run b ms g) := by
  have hsp : ∀ nd, nd = 2 ∨ nd = 3 → splitAndCast E.lex.uns nd s = none := by
    have hcm := hi.comma
    have g1 : ∀ (a : Str) (i : Str), ',' ∉ a → getline ⟨List.intercalate [','] [a], true⟩ i = (⟨[], false⟩, a) := fun a i h => getline_last h i
    intro nd hnd
    obtain ⟨n, rfl⟩ : ∃ n, nd = n + 2 := ⟨nd - 2, by omega⟩
    unfold splitAndCast
    rw [hi.text]
    match l, hi.ne with
    | [a], _ =>
      have : x = a := by simpa using hx
      subst this
      simp only [castLoop, g1 x [] (hcm x (by simp)), hb]
    | a :: c :: l', _ =>
      have ha := hcm a (by simp)
      have hc := hcm c (by simp)
      have e1 := getline_cons (x := a) (y := c) (l := l') ha []
      have e2 : (getline ⟨List.intercalate [','] (c :: l'), true⟩ a).2 = c := by
        cases l' with
        | nil => rw [g1 c a hc]
        | cons d l'' => rw [getline_cons hc]
      have : x = a ∨ x = c := by simpa using hx
      rcases this with rfl | rfl
      · simp only [castLoop, e1, hb]
      · simp only [castLoop, e1, e2, hb]
        cases E.lex.uns a <;> rfl
  intro hm
  unfold Main at hm
  split at hm
  · cases hm
  · rw [hcfg] at hm
    dsimp only at hm
    split at hm
    · cases hm
    · split at hm
      · cases hm
      · split at hm
        · cases hm
        · next n _ => 
          split at hm
          · next hn =>
            unfold Configure at hm
            dsimp only at hm
            split at hm
            · rcases hm with ⟨ms', -, hm⟩ | hm
              · have t2 : text (options E.stem f) "problem.start" = s := by unfold text options; rw [hs]; rfl
                unfold problem at hm
                rw [t2, hsp n hn] at hm
                split at hm
                · next e he =>
                  have : ∀ e, makeGrid E (options E.stem f) n = .error e → ∀ b ms g, e ≠ .run b ms g := by
                    intro e he
                    unfold makeGrid at he
                    repeat' split at he
                    all_goals first
                      | (injection he with he; subst he; intro b ms g hc; cases hc)
                      | cases he
                  exact this e he _ _ _ hm.symm
                · split at hm <;> cases hm
              · obtain ⟨_, _, _, _, _, -, -, ⟨-, h⟩ | ⟨-, h⟩⟩ := hm <;> cases h
            · cases hm
          · cases hm

/-! ## Non-vacuity -/

/-- numbers of one or two digits -/
def exUns : Str → Option Nat
  | [a] => if a.isDigit then some (a.toNat - 48) else none
  | [a, b] => if a.isDigit && b.isDigit then some (10 * (a.toNat - 48) + (b.toNat - 48)) else none
  | _ => none

/-- a configuration: a map of 4 × 3 cells, from (1,2) to (3,0), one solver, all other options by default -/
def exCfg : CfgFile :=
  { set := fun k => if k = "grid.dimsize".toList then some "4,3".toList else if k = "problem.start".toList then some "1,2".toList
      else if k = "problem.goal".toList then some "3,0".toList else none
    unr := [("Solvers.FSM".toList, [])] }

/-- the program's environment -/
noncomputable def exEnv : Env XR :=
  { cfg := some exCfg, stem := "my".toList, img := fun _ => none, txt := fun _ => none, conv := fun _ => (XR.fin 0, true)
    lex := ⟨fun s => (exUns s).map (fun n => XR.fin n), exUns, fun _ => 0⟩, ljunk := ⟨XR.fin 0, 0, fun _ => 0, XR.fin 0⟩, gjunk := (0, 0) }

/-- non-vacuity: the configuration describes a problem, and its solver line is good -/
example : Describes exEnv exCfg [4,3] (XR.fin 1) [1,2] (some [3,0]) 10 0 "my".toList ∧ InBox [4,3] [1,2] ∧ InBox [4,3] [3,0] ∧ Fits [4,3] (2^32) ∧
    (readSolvers exCfg.unr).length = [(⟨.fsm (2^32 - 1), .dary, "FSM".toList⟩ : Made XR)].length ∧
    ∀ i (h1 : i < (readSolvers exCfg.unr).length) (h2 : i < [(⟨.fsm (2^32 - 1), .dary, "FSM".toList⟩ : Made XR)].length), ∀ o,
      Round exEnv.lex (readSolvers exCfg.unr)[i].1 (readSolvers exCfg.unr)[i].2 o ↔ o = .add [(⟨.fsm (2^32 - 1), .dary, "FSM".toList⟩ : Made XR)][i] := by
  have hrs : readSolvers exCfg.unr = [("fsm".toList, [])] := by decide +kernel
  refine ⟨⟨⟨Or.inr ⟨by decide, rfl⟩, ⟨_, Or.inr ⟨by decide, rfl⟩, by decide⟩, Or.inl rfl, ⟨_, Or.inr ⟨by decide, rfl⟩, ?_⟩, ⟨"1,2".toList, by decide, ⟨["1".toList, "2".toList],
      ⟨by decide, by decide, by decide⟩, by decide⟩⟩, ⟨"3,0".toList, Or.inl (by decide), ⟨["3".toList, "0".toList], ⟨by decide, by decide, by decide⟩, by decide⟩⟩,
      ⟨_, Or.inr ⟨by decide, rfl⟩, by decide⟩, ⟨_, Or.inr ⟨by decide, rfl⟩, by decide⟩, Or.inr ⟨by decide, rfl⟩⟩,
      by decide, by decide, ⟨"4,3".toList, Or.inl (by decide), ⟨["4".toList, "3".toList], ⟨by decide, by decide, by decide⟩, by decide⟩⟩⟩,
    ⟨rfl, by decide⟩, ⟨rfl, by decide⟩, ⟨by decide, by decide, by decide⟩, by rw [hrs]; rfl, ?_⟩
  · show (exUns "1".toList).map (fun n => XR.fin n) = some (XR.fin 1)
    have : exUns "1".toList = some 1 := by decide
    rw [this]
    simp
  · intro i h1 h2 o
    have hi : i = 0 := by simpa using h2
    subst hi
    simp only [hrs]
    exact C44_default exEnv.lex "fsm".toList _ ⟨.fsm, fun _ => (by decide : ("fsm".toList, "FSM".toList) ∈ defaultNames), fun h => absurd rfl h⟩ o

end FMV.Program
