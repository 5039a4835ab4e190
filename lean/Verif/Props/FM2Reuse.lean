import Verif.Props.FM2
import Verif.Model.GD
/-!
# C55: FM2 and FM2* after `reset()`
-/
set_option linter.unusedSectionVars false
set_option linter.unusedVariables false
namespace FMV
open Arith Spec Shape
variable {F : Type} [Arith F]

/-- The histories of one FM2 / FM2* object on one grid: `History ... G o` says that a program that constructs the object and gives it the grid `g0` can, by any sequence of
calls of the public API that return, get to grid `G` and object `o`.  No restriction is made on the order of the calls. -/
inductive Spec.FM2History (pop : FMM.St F → Nat → Prop) (star : Option Heur) (mx : F) (d : Bool) (gl : Nat) (j : Junk F) (g0 : Grid F) : Grid F → FM2.Obj F → Prop
  | start : FM2History pop star mx d gl j g0 ((FM2.new star mx d gl j).setEnvironment g0).1 ((FM2.new star mx d gl j).setEnvironment g0).2
  | environment {G o} : FM2History pop star mx d gl j g0 G o → FM2History pop star mx d gl j g0 (o.setEnvironment G).1 (o.setEnvironment G).2
  | points {G o} (pts : List Nat) (goal : Nat) : FM2History pop star mx d gl j g0 G o → FM2History pop star mx d gl j g0 G (o.setPoints G pts goal)
  | setup {G o G' o'} : FM2History pop star mx d gl j g0 G o → o.setup G = .ok (G', o') → FM2History pop star mx d gl j g0 G' o'
  | compute {G o G' o'} : FM2History pop star mx d gl j g0 G o → o.Computes pop G G' o' → FM2History pop star mx d gl j g0 G' o'
  | path {G o step path vels o'} : FM2History pop star mx d gl j g0 G o → o.ComputesPath G step path vels o' → FM2History pop star mx d gl j g0 G o'
  | reset {G o} : FM2History pop star mx d gl j g0 G o → FM2History pop star mx d gl j g0 (o.reset G).1 (o.reset G).2

namespace FM2

theorem precompute_idem (s : Shape) (t : Nat → F) : FMM.precomputeDistances s (FMM.precomputeDistances s t) = FMM.precomputeDistances s t := by
  funext i; unfold FMM.precomputeDistances; split <;> rfl

/-- what stays true of the object in any history -/
structure Ok (star : Option Heur) (mx : F) (d : Bool) (j : Junk F) (g0 G : Grid F) (o : Obj F) : Prop where
  star : o.star = star
  mx : o.maxDist = mx
  sources : o.sources = g0.occupied
  kind : o.inner.kind = .fmm d .none
  dist : FMM.precomputeDistances g0.shape o.inner.dist = FMM.precomputeDistances g0.shape j.dist
  shape : G.shape = g0.shape
  occupied : G.occupied = g0.occupied
  cells : G.clean = true → G.cells = (freshGrid G).cells

theorem cleanGrid_fresh {G : Grid F} (h : G.clean = true → G.cells = (freshGrid G).cells) : G.cleanGrid = freshGrid G := by
  rcases Life.clean_fresh (lsm := false) (fun hc => Or.inl (h hc)) with h | ⟨h, _⟩
  · exact h
  · cases h

/-- the table of distances stays as good -/
def GoodDist (g0 : Grid F) (j : Junk F) (s : FMV.Obj F) : Prop :=
  FMM.precomputeDistances g0.shape s.dist = FMM.precomputeDistances g0.shape j.dist

theorem heuristics_keeps {g0 g : Grid F} {j : Junk F} (hs : g.shape = g0.shape) {s : FMV.Obj F} (hd : GoodDist g0 j s) (h : Heur) :
    GoodDist g0 j (s.setHeuristics g h) ∧ (s.setHeuristics g h).kind = s.kind := by
  unfold FMV.Obj.setHeuristics
  split
  · refine ⟨?_, rfl⟩
    unfold GoodDist
    dsimp only
    split
    · exact hd
    · rw [hs, precompute_idem]; exact hd
  · exact ⟨hd, rfl⟩

theorem setupKind_keeps {g0 g : Grid F} {j : Junk F} {d : Bool} (hs : g.shape = g0.shape) {s : FMV.Obj F} (hd : GoodDist g0 j s) (hk : s.kind = .fmm d .none) :
    GoodDist g0 j (s.setupKind g) ∧ (s.setupKind g).kind = .fmm d .none := by
  unfold FMV.Obj.setupKind
  rw [hk]
  dsimp only
  obtain ⟨h1, h2⟩ := heuristics_keeps hs hd s.heur
  split
  · exact ⟨h1, h2.trans hk⟩
  · exact ⟨h1, h2.trans hk⟩

theorem computes_keeps {pop : FMM.St F → Nat → Prop} {g0 g G : Grid F} {j : Junk F} {d : Bool} (hs : g.shape = g0.shape) (ho : g.occupied = g0.occupied) {s s' : FMV.Obj F}
    (hd : GoodDist g0 j s) (hk : s.kind = .fmm d .none) (h : s.computes pop g G s') :
    GoodDist g0 j s' ∧ s'.kind = .fmm d .none ∧ G.shape = g0.shape ∧ G.occupied = g0.occupied := by
  have key : ∀ (s1 : FMV.Obj F) (g1 : Grid F), GoodDist g0 j s1 → s1.kind = .fmm d .none → g1.shape = g0.shape → g1.occupied = g0.occupied → s1.runs pop g1 G s' →
      GoodDist g0 j s' ∧ s'.kind = .fmm d .none ∧ G.shape = g0.shape ∧ G.occupied = g0.occupied := by
    intro s1 g1 a b c e hr
    have K := Kept.runs hr
    unfold FMV.Obj.runs at hr
    rw [b] at hr
    obtain ⟨n, st, _, _, _, rfl⟩ := hr
    exact ⟨a, rfl, K.map.shape.trans c, K.map.occupied.trans e⟩
  rcases h with ⟨_, hr⟩ | ⟨_, g1, o1, hset, hr⟩
  · exact key _ _ hd hk hs ho hr
  · obtain ⟨_, rfl, rfl⟩ := Life.setup_spec hset
    obtain ⟨a, b⟩ := setupKind_keeps (g := g.setClean false) (s := { s with ready := true }) (d := d) (j := j) hs hd hk
    exact key _ (g.setClean false) a b hs ho hr

theorem Ok.runs {pop : FMM.St F → Nat → Prop} {star : Option Heur} {mx : F} {d : Bool} {j : Junk F} {g0 g G : Grid F} {o o' : Obj F}
    (h1 : o.star = star) (h2 : o.maxDist = mx) (h3 : o.sources = g0.occupied) (h4 : o.inner.kind = .fmm d .none) (h5 : GoodDist g0 j o.inner)
    (h6 : g.shape = g0.shape) (h7 : g.occupied = g0.occupied) (h : o.Runs pop g G o') : Ok star mx d j g0 G o' := by
  obtain ⟨gv, s, g2, s2, ⟨g1, hv, rfl⟩, hc, rfl, rfl⟩ := h
  obtain ⟨a1, a2, a3, a4⟩ := computes_keeps (s := o.inner.setPoints o.sources noGoal) (g := g.setClean true) h6 h7 h5 h4 hv
  have hsec : GoodDist g0 j (o.second (rescale o.maxDist g1) s) ∧ (o.second (rescale o.maxDist g1) s).kind = .fmm d .none := by
    unfold Obj.second
    split
    · exact ⟨a1, a2⟩
    · obtain ⟨x, y⟩ := heuristics_keeps (g := rescale o.maxDist g1) (s := s.setPoints [o.goal] (o.pts.headD 0)) a3 a1 (by assumption)
      exact ⟨x, y.trans a2⟩
  obtain ⟨b1, b2, b3, b4⟩ := computes_keeps (g := rescale o.maxDist g1) a3 a4 hsec.1 hsec.2 hc
  exact ⟨h1, h2, h3, b2, b1, b3, b4, fun h => by cases h⟩

theorem History.ok {pop : FMM.St F → Nat → Prop} {star : Option Heur} {mx : F} {d : Bool} {gl : Nat} {j : Junk F} {g0 G : Grid F} {o : Obj F}
    (h0 : g0.clean = true → g0.cells = (freshGrid g0).cells) (h : FM2History pop star mx d gl j g0 G o) : Ok star mx d j g0 G o := by
  have hfresh : ∀ {g : Grid F}, (g.clean = true → g.cells = (freshGrid g).cells) → g.cleanGrid.cleanGrid = freshGrid g := by
    intro g hg; rw [clean2, cleanGrid_fresh hg]
  induction h with
  | start =>
    have e : ((new star mx d gl j).setEnvironment g0).1 = freshGrid g0 := hfresh h0
    refine ⟨rfl, rfl, rfl, rfl, rfl, ?_, ?_, ?_⟩ <;> rw [e] <;> first | rfl | exact fun _ => rfl
  | @environment G o _ I =>
    have e : (o.setEnvironment G).1 = freshGrid G := hfresh I.cells
    have hi : (o.setEnvironment G).2.inner = o.inner := by
      show o.inner.setEnvironment _ = _
      unfold FMV.Obj.setEnvironment; rw [I.kind]
    refine ⟨I.star, I.mx, I.occupied, by rw [hi]; exact I.kind, by rw [hi]; exact I.dist, ?_, ?_, ?_⟩ <;> rw [e]
    · exact I.shape
    · exact I.occupied
    · exact fun _ => rfl
  | @points G o pts goal _ I =>
    unfold Obj.setPoints
    split
    · exact ⟨I.star, I.mx, I.sources, I.kind, I.dist, I.shape, I.occupied, I.cells⟩
    · refine ⟨I.star, I.mx, I.sources, I.kind, ?_, I.shape, I.occupied, I.cells⟩
      show FMM.precomputeDistances g0.shape (FMM.precomputeDistances G.shape o.inner.dist) = _
      rw [I.shape, precompute_idem]; exact I.dist
  | setup _ hs I =>
    obtain ⟨_, _, _, _, rfl, rfl⟩ := setup_ok hs
    exact ⟨I.star, I.mx, I.sources, I.kind, I.dist, I.shape, I.occupied, fun h => by cases h⟩
  | @compute G o _ _ _ hc I =>
    rcases hc with ⟨_, hr⟩ | ⟨_, g1, o1, hs, hr⟩
    · exact Ok.runs I.star I.mx I.sources I.kind I.dist I.shape I.occupied hr
    · obtain ⟨_, _, _, _, rfl, rfl⟩ := setup_ok hs
      exact Ok.runs (o := { o with ready := true }) I.star I.mx I.sources I.kind I.dist I.shape I.occupied hr
  | path _ hp I =>
    obtain ⟨idx', _, rfl⟩ := hp
    exact ⟨I.star, I.mx, I.sources, I.kind, I.dist, I.shape, I.occupied, I.cells⟩
  | @reset G o _ I =>
    have hr : o.reset G = (freshGrid G, { o with ready := false, inner := { o.inner with ready := false, heap := [] } }) := by
      unfold Obj.reset FMV.Obj.reset
      dsimp only
      rw [I.kind]
      dsimp only
      rw [hfresh I.cells]
    rw [hr]
    exact ⟨I.star, I.mx, I.sources, I.kind, I.dist, I.shape, I.occupied, fun _ => rfl⟩

/-- Two FM2 objects that cannot be told apart by what they compute next. -/
structure Alike (d : Bool) (o1 o2 : Obj F) : Prop where
  star : o1.star = o2.star
  mx : o1.maxDist = o2.maxDist
  pts : o1.pts = o2.pts
  goal : o1.goal = o2.goal
  ready1 : o1.ready = false
  ready2 : o2.ready = false
  sources : o1.sources = o2.sources
  kind1 : o1.inner.kind = .fmm d .none
  kind2 : o2.inner.kind = .fmm d .none
  heap1 : o1.inner.heap = []
  heap2 : o2.inner.heap = []
  in1 : o1.inner.ready = false
  in2 : o2.inner.ready = false
  pre : o1.star ≠ none → o1.inner.pre = true ∧ o2.inner.pre = true ∧ o1.inner.dist = o2.inner.dist

theorem Alike.symm {d : Bool} {o1 o2 : Obj F} (A : Alike d o1 o2) : Alike d o2 o1 :=
  ⟨A.star.symm, A.mx.symm, A.pts.symm, A.goal.symm, A.ready2, A.ready1, A.sources.symm, A.kind2, A.kind1, A.heap2, A.heap1, A.in2, A.in1, fun h => by
    obtain ⟨a, b, c⟩ := A.pre (by rw [A.star]; exact h)
    exact ⟨b, a, c.symm⟩⟩

/-- the first wave: which run it is, and the inner solver afterwards -/
theorem wave {pop : FMM.St F → Nat → Prop} {s s' : FMV.Obj F} {d : Bool} {g g1 : Grid F} {src : List Nat} (hk : s.kind = .fmm d .none) (hh : s.heap = []) (hr : s.ready = false) :
    (s.setPoints src noGoal).computes pop g g1 s' ↔
      ValidProblem g src noGoal ∧ ∃ n st, FMM.Steps (FMV.Obj.FMMStep pop (waveCfg d)) n (FMM.init (waveCfg d) (g.setClean false) [] src) st ∧ FMM.Done st ∧ g1 = st.g ∧
        s' = { s with pts := src, goal := noGoal, ready := true, heur := .none, heap := st.heap } := by
  have hsk : ({ s.setPoints src noGoal with ready := true } : FMV.Obj F).setupKind (g.setClean false) =
      { s with pts := src, goal := noGoal, ready := true, heur := .none } := by
    cases s
    dsimp only at hk
    subst hk
    rename_i heur _ _ _ _ _ _ _ _ _ _ _ _
    by_cases hn : heur = .none
    · simp [FMV.Obj.setupKind, FMV.Obj.setHeuristics, FMV.Obj.setPoints, hn]
    · simp [FMV.Obj.setupKind, FMV.Obj.setHeuristics, FMV.Obj.setPoints, hn]
  have hcfg : FMV.Obj.fmmCfg { s with pts := src, goal := noGoal, ready := true, heur := .none } (g.setClean false) d = waveCfg d := by
    simp [FMV.Obj.fmmCfg, waveCfg]
  have hrun : ∀ g1 s', FMV.Obj.runs pop { s with pts := src, goal := noGoal, ready := true, heur := .none } (g.setClean false) g1 s' ↔
      ∃ n st, FMM.Steps (FMV.Obj.FMMStep pop (waveCfg d)) n (FMM.init (waveCfg d) (g.setClean false) [] src) st ∧ FMM.Done st ∧ g1 = st.g ∧
        s' = { s with pts := src, goal := noGoal, ready := true, heur := .none, heap := st.heap } := by
    intro g1 s'
    unfold FMV.Obj.runs
    dsimp only
    rw [hk]
    dsimp only
    have e : ({ s with pts := src, goal := noGoal, ready := true, heur := .none } : FMV.Obj F).fmmCfg (g.setClean false) d = waveCfg d := hcfg
    rw [hk] at e
    rw [e, hh]
  have hsan := Life.sanity_iff (s.setPoints src noGoal) g
  constructor
  · rintro (⟨h, _⟩ | ⟨_, ga, oa, hset, hru⟩)
    · rw [show (s.setPoints src noGoal).ready = s.ready from rfl, hr] at h; cases h
    · obtain ⟨h0, rfl, rfl⟩ := Life.setup_spec hset
      rw [hsk, hrun] at hru
      exact ⟨hsan.1 h0, hru⟩
  · rintro ⟨hv, hru⟩
    refine Or.inr ⟨hr, g.setClean false, _, ?_, (hrun _ _).2 hru⟩
    unfold FMV.Obj.setup
    rw [if_pos (hsan.2 hv), hsk]

/-- objects that are alike produce the same grids -/
theorem Alike.runs {pop : FMM.St F → Nat → Prop} {d : Bool} {o1 o2 : Obj F} (A : Alike d o1 o2) {g G : Grid F} {o' : Obj F}
    (h : ({ o1 with ready := true } : Obj F).Runs pop g G o') : ∃ o'', ({ o2 with ready := true } : Obj F).Runs pop g G o'' := by
  obtain ⟨gv, s, g2, s2, ⟨g1, hv, rfl⟩, hc, rfl, rfl⟩ := h
  obtain ⟨hval, n, st, r1, r2, rfl, rfl⟩ := (wave A.kind1 A.heap1 A.in1).1 hv
  have hv2 := (wave (s' := { o2.inner with pts := o1.sources, goal := noGoal, ready := true, heur := .none, heap := st.heap }) A.kind2 A.heap2 A.in2).2 ⟨hval, n, st, r1, r2, rfl, rfl⟩
  -- the configuration of the second wave
  have hsec : ∀ (o : Obj F), o.inner.kind = .fmm d .none →
      ∃ t : FMV.Obj F, o.second (rescale o.maxDist st.g) { o.inner with pts := o.sources, goal := noGoal, ready := true, heur := .none, heap := st.heap } = t ∧ t.ready = true ∧
        t.kind = .fmm d .none ∧ t.heap = st.heap ∧ t.pts = [o.goal] ∧
        (o.star = none → t.fmmCfg (rescale o.maxDist st.g) d = { dup := d, heur := .none, hdist := fun _ => zero, goal := o.pts.headD 0 }) ∧
        (∀ h, o.star = some h → o.inner.pre = true → t.fmmCfg (rescale o.maxDist st.g) d =
          { dup := d, heur := if h ≠ .none ∧ o.pts.headD 0 ≠ noGoal then h else .none
            hdist := if h ≠ .none ∧ o.pts.headD 0 ≠ noGoal then
              FMM.getPrecomputedDistance (rescale o.maxDist st.g).shape o.inner.dist ((rescale o.maxDist st.g).shape.idx2coord (o.pts.headD 0)) else fun _ => zero
            goal := o.pts.headD 0 }) := by
    intro o hk
    unfold Obj.second
    cases hs : o.star with
    | none =>
      refine ⟨_, rfl, rfl, hk, rfl, rfl, fun _ => ?_, fun h hh => by cases hh⟩
      simp [FMV.Obj.setPoints, FMV.Obj.fmmCfg]
    | some h =>
      dsimp only
      unfold FMV.Obj.setHeuristics
      by_cases hc : h ≠ .none ∧ o.pts.headD 0 ≠ noGoal
      · rw [if_pos (by exact hc)]
        refine ⟨_, rfl, rfl, hk, rfl, rfl, (by intro h; cases h), ?_⟩
        intro h' hh' hp
        cases hh'
        rw [if_pos hc, if_pos hc]
        simp [FMV.Obj.setPoints, FMV.Obj.fmmCfg, hc.1, hp]
      · rw [if_neg (by exact hc)]
        refine ⟨_, rfl, rfl, hk, rfl, rfl, (by intro h; cases h), ?_⟩
        intro h' hh' hp
        cases hh'
        rw [if_neg hc, if_neg hc]
        simp [FMV.Obj.setPoints, FMV.Obj.fmmCfg]
  obtain ⟨t1, e1, e2, e3, e4, e5, e6, e7⟩ := hsec o1 A.kind1
  obtain ⟨t2, f1, f2, f3, f4, f5, f6, f7⟩ := hsec o2 A.kind2
  have hcfg : t1.fmmCfg (rescale o1.maxDist st.g) d = t2.fmmCfg (rescale o1.maxDist st.g) d := by
    rw [← A.mx] at f6 f7
    cases hs : o1.star with
    | none => rw [e6 hs, f6 (A.star ▸ hs), A.pts]
    | some h =>
      obtain ⟨p1, p2, p3⟩ := A.pre (by rw [hs]; simp)
      rw [e7 h hs p1, f7 h (A.star ▸ hs) p2, A.pts, p3]
  have hc1 : t1.computes pop (rescale o1.maxDist st.g) g2 s2 := by rw [← e1]; exact hc
  rcases hc1 with ⟨_, hr⟩ | ⟨hn, _⟩
  · unfold FMV.Obj.runs at hr
    rw [e3] at hr
    obtain ⟨m, s, q1, q2, q3, q4⟩ := hr
    refine ⟨_, rescale o1.maxDist st.g, _, g2, { t2 with heap := s.heap }, ⟨st.g, by rw [← A.sources]; exact hv2, by rw [show ({ o2 with ready := true } : Obj F).maxDist = o1.maxDist from A.mx.symm]⟩, ?_, rfl, rfl⟩
    have e : Obj.second { o2 with ready := true } (rescale o1.maxDist st.g) { o2.inner with pts := o1.sources, goal := noGoal, ready := true, heur := .none, heap := st.heap } = t2 := by
      rw [← f1, A.mx, A.sources]; rfl
    rw [e]
    refine Or.inl ⟨f2, ?_⟩
    unfold FMV.Obj.runs
    rw [f3]
    refine ⟨m, s, ?_, q2, q3, by simp [f3]⟩
    rw [← hcfg, f4, f5, ← A.goal, ← e4, ← e5]
    exact q1
  · rw [e2] at hn; cases hn

theorem Alike.computes {pop : FMM.St F → Nat → Prop} {d : Bool} {o1 o2 : Obj F} (A : Alike d o1 o2) {g G : Grid F} (h : ∃ o', o1.Computes pop g G o') :
    ∃ o', o2.Computes pop g G o' := by
  obtain ⟨o', h⟩ := h
  rcases h with ⟨hr, _⟩ | ⟨_, g1, oo, hs, hr⟩
  · rw [A.ready1] at hr; cases hr
  · obtain ⟨s1, s2, s3, s4, rfl, rfl⟩ := setup_ok hs
    obtain ⟨o'', hr2⟩ := A.runs hr
    refine ⟨o'', Or.inr ⟨A.ready2, g.setClean false, { o2 with ready := true }, ?_, hr2⟩⟩
    have hsan : o2.sanityChecks g = 0 := by
      rw [← s1]
      unfold Obj.sanityChecks FMV.Obj.sanityChecks
      rw [A.pts, A.goal]
    unfold Obj.setup
    rw [hsan, if_neg (by simp), if_neg (by rw [← A.pts]; omega), if_neg (by rw [← A.sources]; exact s3),
      if_neg (by rw [← A.star, ← A.goal]; rintro ⟨a, b⟩; exact s4 a b)]

/-- **C55**: after any history of calls on an FM2 or FM2* object, `reset()`, setting a problem and `compute()` can produce exactly the grids that a newly constructed object
with the same parameters can produce on a new grid with the same speeds; in particular it exits, or runs forever, in the same cases.  (The junk of the new object may be
different; for FM2* the never-written part of its table of distances is taken to be the same.) -/
theorem _root_.FMV.C55_FM2_reset_reusable (pop : FMM.St F → Nat → Prop) (star : Option Heur) (mx : F) (d : Bool) (gl : Nat) (j : Junk F) (g0 G : Grid F) (o : Obj F)
    (h0 : g0.clean = true → g0.cells = (freshGrid g0).cells) (h : FM2History pop star mx d gl j g0 G o) (pts : List Nat) (goal : Nat) (gl' : Nat) (j' : Junk F)
    (hj : star ≠ none → j'.dist = j.dist) (G' : Grid F) :
    (∃ o', ((o.reset G).2.setPoints (o.reset G).1 pts goal).Computes pop (o.reset G).1 G' o') ↔
      ∃ o', (configuredFM2 star mx d gl' j' (freshGrid G) pts goal).2.Computes pop (configuredFM2 star mx d gl' j' (freshGrid G) pts goal).1 G' o' := by
  have I := History.ok h0 h
  have hr : o.reset G = (freshGrid G, { o with ready := false, inner := { o.inner with ready := false, heap := [] } }) := by
    unfold Obj.reset FMV.Obj.reset
    dsimp only
    rw [I.kind]
    dsimp only
    rw [clean2, cleanGrid_fresh I.cells]
  have hc : (configuredFM2 star mx d gl' j' (freshGrid G) pts goal).1 = freshGrid G := by
    show (freshGrid G).cleanGrid.cleanGrid = _
    rfl
  have A : Alike d ((o.reset G).2.setPoints (o.reset G).1 pts goal) (configuredFM2 star mx d gl' j' (freshGrid G) pts goal).2 := by
    rw [hr]
    dsimp only
    unfold configuredFM2 Obj.setPoints
    dsimp only
    rw [I.star]
    cases star with
    | none =>
      exact ⟨rfl, I.mx, rfl, rfl, rfl, rfl, I.sources.trans I.occupied.symm, I.kind, rfl, rfl, rfl, rfl, rfl, fun h => absurd rfl h⟩
    | some hh =>
      refine ⟨rfl, I.mx, rfl, rfl, rfl, rfl, I.sources.trans I.occupied.symm, I.kind, rfl, rfl, rfl, rfl, rfl, fun _ => ⟨rfl, rfl, ?_⟩⟩
      show FMM.precomputeDistances G.shape o.inner.dist = FMM.precomputeDistances G.shape j'.dist
      rw [hj (by simp), I.shape]; exact I.dist
  rw [hc, show (o.reset G).1 = freshGrid G by rw [hr]]
  rw [hr] at A
  rw [hr]
  exact ⟨A.computes, A.symm.computes⟩

/-- a concrete history: construct, set a problem on a grid, compute (if it returns), set another problem, reset -/
example (pop : FMM.St XR → Nat → Prop) (j : Junk XR) (G1 : Grid XR) (o1 : Obj XR)
    (h : ((new (some .time) (.fin (-1)) false 0 j).setEnvironment (Grid.create [3,3] (.fin 1) (0,0))).2.setPoints
      ((new (some .time) (.fin (-1)) false 0 j).setEnvironment (Grid.create [3,3] (.fin 1) (0,0))).1 [0] 8 |>.Computes pop
        ((new (some .time) (.fin (-1)) false 0 j).setEnvironment (Grid.create [3,3] (.fin 1) (0,0))).1 G1 o1) :
    FM2History pop (some .time) (.fin (-1)) false 0 j (Grid.create [3,3] (.fin 1) (0,0)) (o1.reset G1).1 (o1.reset G1).2 :=
  .reset (.compute (.points [0] 8 .start) h)

end FM2
end FMV
