import Verif.Spec.Route
import Verif.Props.HeurRun
import Verif.Props.FMMExact
/-
C62: the arrival time FMM* and SFMM* leave at the goal.
-/
set_option linter.unusedSectionVars false
set_option linter.unusedVariables false
namespace FMV
open Spec Shape XR FMM

/-- the outcome of the local solver is at most any usable directional minimum plus the crossing time -/
theorem upd_le_add {c : ℝ} (hc : 0 < c) {Ti m : WithTop ℝ} {ms : List (WithTop ℝ)} (hm : m ∈ ms) (hlt : m < Ti) :
    upd c Ti ms ≤ m + (c : WithTop ℝ) := by
  cases m with
  | top => exact absurd hlt not_top_lt
  | coe t =>
    unfold upd
    have hmem : t ∈ usableT Ti ms := mem_usableT.2 ⟨hm, hlt⟩
    obtain ⟨u, used, unused, h1, h2, h3, h4, h5, h6, h7⟩ := eikR_spec hc (List.ne_nil_of_mem hmem)
    rw [h1]
    have key : ∀ a ∈ used, u ≤ a + c := by
      intro a ha
      have : (u - a)^2 ≤ c^2 := by
        rw [← h4]
        exact List.single_le_sum (by simp only [List.mem_map]; rintro x ⟨y, _, rfl⟩; positivity) _ (List.mem_map_of_mem ha)
      have := abs_le_of_sq_le_sq' this hc.le
      linarith [this.2]
    have : u ≤ t + c := by
      rcases List.mem_append.1 (h2.subset hmem) with h | h
      · exact key t h
      · obtain ⟨a, ha⟩ := List.exists_mem_of_ne_nil _ h3
        linarith [key a ha, h7 a ha t h]
    exact_mod_cast this

namespace FMM
variable {dims : List Nat} {g : Grid XR} {h : ℝ} {v : Nat → ℝ} {p : Nat}

/-- neighbours of `x` that wait in `todo` may still lack an update from `x` -/
structure AStar (X : XInput dims g h v [p]) (x : Nat) (todo : List Nat) (s : St XR) : Prop where
  map : SameMap g s.g
  good : GoodG s.g
  heap : ∀ y ∈ s.heap, y < dims.prod
  fzN : ∀ y, s.g.state y = .frozen → y < dims.prod
  pf : s.g.state p = .frozen
  p0 : tv s.g p = 0
  opn : ∀ k, s.g.state k = .opn → tv s.g k = ⊤
  nar : ∀ k, s.g.state k = .narrow → k ∈ s.heap
  nb : ∀ z y, s.g.state z = .frozen → y ∈ (Shape.mk' dims).nbrs z → g.occ y = false → s.g.state y ≠ .frozen →
    (z = x ∧ y ∈ todo) ∨ (s.g.state y = .narrow ∧ tv s.g y ≤ tv s.g z + ((h / v y + eps : ℝ) : WithTop ℝ))

theorem AStar.relax (X : XInput dims g h v [p]) {cfg : Cfg XR} {x j : Nat} {rest : List Nat} {s : St XR} (A : AStar X x (j :: rest) s)
    (hj : j < dims.prod) : AStar X x rest (FMM.relax cfg eikS s j) := by
  have hocc : s.g.occ j = g.occ j := SameMap.occ_eq A.map j
  obtain ⟨hmap, hgood, _⟩ := tv_relax_pos X (cfg := cfg) A.map A.good hj
  have hst := relax_state cfg eikS s j
  have hheap : ∀ y ∈ (FMM.relax cfg eikS s j).heap, y < dims.prod := by
    intro y hy
    rcases relax_heap_mem hy with h1 | ⟨rfl, _⟩
    · exact A.heap y h1
    · exact hj
  have hfz : ∀ k, (FMM.relax cfg eikS s j).g.state k = .frozen ↔ s.g.state k = .frozen := by
    intro k; rw [hst]; split
    · next hk => rw [hk.1, hk.2.1]; simp
    · rfl
  have hfv : ∀ k, s.g.state k = .frozen → tv (FMM.relax cfg eikS s j).g k = tv s.g k := by
    intro k hk; unfold tv Grid.value; rw [relax_cells_protected (Or.inl hk)]
  have hne : ∀ k, k ≠ j → tv (FMM.relax cfg eikS s j).g k = tv s.g k ∧ (FMM.relax cfg eikS s j).g.state k = s.g.state k := by
    intro k hk; unfold tv Grid.value Grid.state; rw [relax_cells_ne hk]; exact ⟨rfl, rfl⟩
  have hnb : ∀ z, s.g.state z = .frozen → j ∈ (Shape.mk' dims).nbrs z → g.occ j = false → s.g.state j ≠ .frozen →
      (FMM.relax cfg eikS s j).g.state j = .narrow ∧ j ∈ (FMM.relax cfg eikS s j).heap ∧
        tv (FMM.relax cfg eikS s j).g j ≤ tv s.g z + ((h / v j + eps : ℝ) : WithTop ℝ) := by
    intro z hz hjz ho hnf
    have hzj : z ∈ (Shape.mk' dims).nbrs j := nbrs_symm X.fits (A.fzN z hz) hjz
    obtain ⟨m, hm, hmz⟩ := XInput.mins_le (T := tv s.g) hzj
    have hc := X.cpos hj ho
    have he := X.eik_eq A.map A.good hj ho
    have hbound : tv s.g z < tv s.g j → upd (h / v j) (tv s.g j) (mins (Shape.mk' dims) (tv s.g) j) ≤ tv s.g z + ((h / v j : ℝ) : WithTop ℝ) := by
      intro hlt
      exact (upd_le_add hc hm (lt_of_le_of_lt hmz hlt)).trans (by gcongr)
    have hle : (tv s.g z + ((h / v j : ℝ) : WithTop ℝ)) ≤ tv s.g z + ((h / v j + eps : ℝ) : WithTop ℝ) := by
      have : ((h / v j : ℝ) : WithTop ℝ) ≤ ((h / v j + eps : ℝ) : WithTop ℝ) := by
        have := eps_pos; exact_mod_cast (by linarith : h / v j ≤ h / v j + eps)
      gcongr
    have hle0 : tv s.g z ≤ tv s.g z + ((h / v j + eps : ℝ) : WithTop ℝ) := by
      have : (0 : WithTop ℝ) ≤ ((h / v j + eps : ℝ) : WithTop ℝ) := by
        have := eps_pos; exact_mod_cast (by linarith : 0 ≤ h / v j + eps)
      exact le_add_of_nonneg_right this
    have htvj : s.g.value j = ofT (tv s.g j) := by unfold tv; rw [(A.good j).ofT_toT]
    rcases relax_cases cfg eikS s j with ⟨hh, e⟩ | ⟨_, hn, hb, e⟩ | ⟨_, hn, hb, e⟩ | ⟨_, hn, e⟩
    · rcases hh with hh | hh
      · exact absurd hh hnf
      · rw [hocc, ho] at hh; cases hh
    · have hv : tv (FMM.relax cfg eikS s j).g j = upd (h / v j) (tv s.g j) (mins (Shape.mk' dims) (tv s.g) j) := by
        rw [e]; unfold tv; dsimp only; rw [Grid.value_setValue, if_pos rfl, he, toT_ofT]; rfl
      refine ⟨by rw [hst, if_neg (by rintro ⟨_, h1, _⟩; rw [hn] at h1; cases h1)]; exact hn, relax_heap_sub (A.nar j hn), ?_⟩
      rw [hv]
      by_cases hlt : tv s.g z < tv s.g j
      · exact (hbound hlt).trans hle
      · rw [he, htvj, better_ofT] at hb
        refine le_trans ?_ hle0
        refine le_trans (le_of_lt (lt_of_le_of_lt ?_ hb)) (not_lt.1 hlt)
        have : (0 : WithTop ℝ) ≤ (eps : WithTop ℝ) := by exact_mod_cast eps_pos.le
        exact le_add_of_nonneg_right this
    · have hv : tv (FMM.relax cfg eikS s j).g j = tv s.g j := by
        rw [e]; unfold tv; dsimp only; rw [applyHeur_value]; rfl
      refine ⟨by rw [hst, if_neg (by rintro ⟨_, h1, _⟩; rw [hn] at h1; cases h1)]; exact hn, relax_heap_sub (A.nar j hn), ?_⟩
      rw [hv]
      by_cases hlt : tv s.g z < tv s.g j
      · have hb' : ¬ (Arith.better (eikS s.g j).1 (s.g.value j) = true) := by rw [hb]; simp
        rw [he, htvj, better_ofT] at hb'
        refine (not_lt.1 hb').trans ?_
        have := hbound hlt
        calc _ ≤ tv s.g z + ((h / v j : ℝ) : WithTop ℝ) + (eps : WithTop ℝ) := by gcongr
          _ = _ := by rw [add_assoc, WithTop.coe_add]
      · exact (not_lt.1 hlt).trans hle0
    · have hv : tv (FMM.relax cfg eikS s j).g j = upd (h / v j) (tv s.g j) (mins (Shape.mk' dims) (tv s.g) j) := by
        rw [e]; unfold tv; dsimp only; rw [Grid.value_setValue, if_pos rfl, he, toT_ofT]; rfl
      refine ⟨by rw [hst, if_pos ⟨rfl, hn, by rw [hocc]; exact ho⟩], by rw [e]; exact List.mem_cons_self, ?_⟩
      rw [hv]
      have ht := A.opn j hn
      by_cases hzt : tv s.g z = ⊤
      · rw [hzt]; exact le_top
      · exact (hbound (by rw [ht]; exact lt_top_iff_ne_top.2 hzt)).trans hle
  refine ⟨hmap, hgood, hheap, fun y hy => A.fzN y ((hfz y).1 hy), (hfz p).2 A.pf, (hfv p A.pf).trans A.p0, ?_, ?_, ?_⟩
  · intro k hk
    by_cases hkj : k = j
    · subst hkj
      rw [hst] at hk
      split at hk
      · cases hk
      · next hn =>
        have hko : g.occ k = true := by
          rw [← hocc]; by_contra hcon
          exact hn ⟨rfl, hk, by simpa using hcon⟩
        unfold tv Grid.value
        rw [relax_cells_protected (Or.inr (by rw [hocc]; exact hko))]
        exact A.opn k hk
    · rw [(hne k hkj).2] at hk; rw [(hne k hkj).1]; exact A.opn k hk
  · intro k hk
    by_cases hkj : k = j
    · subst hkj
      rcases relax_cases cfg eikS s k with ⟨hh, e⟩ | ⟨_, hn, hb, e⟩ | ⟨_, hn, hb, e⟩ | ⟨_, hn, e⟩
      · rw [e] at hk ⊢; exact A.nar k hk
      · exact relax_heap_sub (A.nar k hn)
      · exact relax_heap_sub (A.nar k hn)
      · rw [e]; exact List.mem_cons_self
    · rw [(hne k hkj).2] at hk; exact relax_heap_sub (A.nar k hk)
  · intro z y hz hy ho hnf
    rw [hfz] at hz
    rw [Ne, hfz] at hnf
    by_cases hyj : y = j
    · subst hyj
      have := hnb z hz hy ho hnf
      right; exact ⟨this.1, by rw [hfv z hz]; exact this.2.2⟩
    · rcases A.nb z y hz hy ho hnf with ⟨h1, h2⟩ | ⟨h1, h2⟩
      · exact Or.inl ⟨h1, (List.mem_cons.1 h2).resolve_left hyj⟩
      · right; rw [(hne y hyj).2, (hne y hyj).1, hfv z hz]; exact ⟨h1, h2⟩

theorem AStar.fold (X : XInput dims g h v [p]) {cfg : Cfg XR} {x : Nat} : ∀ (l : List Nat) (s : St XR), (∀ j ∈ l, j < dims.prod) → AStar X x l s →
    AStar X x [] (l.foldl (FMM.relax cfg eikS) s)
  | [], _, _, A => A
  | j :: l, s, hl, A => AStar.fold X l _ (fun k hk => hl k (by simp [hk])) (A.relax X (hl j (by simp)))

/-- the heuristic as a real number -/
def IsHeur (cfg : Cfg XR) (g : Grid XR) (dims : List Nat) (p : Nat) (H : Nat → ℝ) : Prop :=
  ∀ i, i < dims.prod → (i = p ∨ g.occ i = false) → heurOf cfg g i = fin (H i)

/-- all frozen cells have the time of a best route, up to the comparison margin -/
structure AGoal (X : XInput dims g h v [p]) (s : St XR) : Prop where
  main : (s.heap = [p] ∧ tv s.g p = 0 ∧ GoodG s.g ∧ (∀ k, s.g.state k = .opn) ∧ (∀ k, k ≠ p → tv s.g k = ⊤) ∧ SameMap g s.g) ∨ ∃ x, AStar X x [] s
  fr : ∀ x t n, s.g.state x = .frozen → Route dims (Shape.mk' dims).idx2coord (fun i => g.occ i = false) (fun i => h / v i) p x t n →
    tv s.g x ≤ ((t + n * eps : ℝ) : WithTop ℝ)
  free : ∀ y, (y ∈ s.heap ∨ s.g.state y = .frozen) → y = p ∨ g.occ y = false

theorem route_lt (hp : p < dims.prod) {cross : Nat → ℝ} {fr : Nat → Prop} {i n : Nat} {t : ℝ}
    (r : Route dims (Shape.mk' dims).idx2coord fr cross p i t n) : i < dims.prod ∧ (i = p ∨ fr i) := by
  cases r with
  | start => exact ⟨hp, Or.inl rfl⟩
  | move _ h1 h2 _ => exact ⟨h1, Or.inr h2⟩

/-- on the way to any cell there is a queued cell whose total value does not exceed what the route promises -/
theorem AGoal.front (X : XInput dims g h v [p]) {s : St XR} (G : AGoal X s) {H : Nat → ℝ}
    (hcons : Consistent dims (Shape.mk' dims).idx2coord (fun i => g.occ i = false) (fun i => h / v i) p H) {y n : Nat} {t : ℝ}
    (r : Route dims (Shape.mk' dims).idx2coord (fun i => g.occ i = false) (fun i => h / v i) p y t n) :
    s.g.state y = .frozen ∨ ∃ z ∈ s.heap, ∃ a : ℝ, tv s.g z = (a : WithTop ℝ) ∧ a + H z ≤ t + n * eps + H y := by
  have hp : p < dims.prod := X.inside p (by simp)
  rcases G.main with ⟨hh, h0, hg, ho, ht, _⟩ | ⟨x, A⟩
  · right
    refine ⟨p, by rw [hh]; simp, 0, h0, ?_⟩
    have : ∀ {y t n}, Route dims (Shape.mk' dims).idx2coord (fun i => g.occ i = false) (fun i => h / v i) p y t n → 0 + H p ≤ t + n * eps + H y := by
      intro y t n r
      induction r with
      | start => simp
      | move r h1 h2 h3 ih =>
        have := hcons _ _ (route_lt hp r).1 h1 (route_lt hp r).2 h2 h3
        have := eps_pos
        push_cast; linarith
    exact this r
  · induction r with
    | start => exact Or.inl A.pf
    | @move i j t n r h1 h2 h3 ih =>
      by_cases hjf : s.g.state j = .frozen
      · exact Or.inl hjf
      right
      have he := eps_pos
      rcases ih with hi | ⟨z, hz, a, ha, hle⟩
      · have hj : j ∈ (Shape.mk' dims).nbrs i := (axisAdjacent_iff X.fits (route_lt hp r).1).2 ⟨h1, h3⟩
        rcases A.nb i j hi hj h2 hjf with ⟨_, hc⟩ | ⟨hn, hle⟩
        · simp at hc
        · have hb := G.fr i t n hi r
          have hjle : tv s.g j ≤ ((t + h / v j + (n + 1 : Nat) * eps : ℝ) : WithTop ℝ) := by
            refine hle.trans ?_
            calc _ ≤ ((t + n * eps : ℝ) : WithTop ℝ) + ((h / v j + eps : ℝ) : WithTop ℝ) := by gcongr
              _ = _ := by rw [← WithTop.coe_add]; congr 1; push_cast; ring
          cases hjv : tv s.g j with
          | top => rw [hjv] at hjle; exact absurd hjle (not_le.2 (WithTop.coe_lt_top _))
          | coe a =>
            rw [hjv] at hjle
            have : a ≤ t + h / v j + (n + 1 : Nat) * eps := WithTop.coe_le_coe.1 hjle
            exact ⟨j, A.nar j hn, a, hjv, by linarith⟩
      · refine ⟨z, hz, a, ha, ?_⟩
        have := hcons _ _ (route_lt hp r).1 h1 (route_lt hp r).2 h2 h3
        push_cast; linarith

theorem AGoal.step (X : XInput dims g h v [p]) {cfg : Cfg XR} {H : Nat → ℝ} (hH : IsHeur cfg g dims p H)
    (hcons : Consistent dims (Shape.mk' dims).idx2coord (fun i => g.occ i = false) (fun i => h / v i) p H) {s s' : St XR}
    (G : AGoal X s) (HI : HInv cfg g [p] s) (hs : StepMin cfg s s') : AGoal X s' := by
  have hp : p < dims.prod := X.inside p (by simp)
  obtain ⟨_, x, htop, rfl⟩ := hs
  have hmap : SameMap g s.g := HI.same
  have hsh : s.g.shape = Shape.mk' dims := hmap.shape.trans X.shape
  have hgood : GoodG s.g := by
    rcases G.main with ⟨_, _, hg, _⟩ | ⟨_, A⟩
    · exact hg
    · exact A.good
  have hxN : x < dims.prod := by
    rcases G.main with ⟨hh, _⟩ | ⟨_, A⟩
    · have := htop.1; rw [hh] at this; simp at this; rw [this]; exact hp
    · exact A.heap x htop.1
  -- the popped cell
  have hx : ∀ t n, Route dims (Shape.mk' dims).idx2coord (fun i => g.occ i = false) (fun i => h / v i) p x t n →
      tv s.g x ≤ ((t + n * eps : ℝ) : WithTop ℝ) := by
    intro t n r
    rcases G.front X hcons r with hf | ⟨z, hz, a, ha, hle⟩
    · exact G.fr x t n hf r
    · have hzN : z < dims.prod := by
        rcases G.main with ⟨hh, _⟩ | ⟨_, A⟩
        · rw [hh] at hz; simp at hz; rw [hz]; exact hp
        · exact A.heap z hz
      have h1 := htop.2 z hz
      have e1 : (s.g.cells z).hValue = fin (H z) := by rw [HI.lab z (HI.hp z hz)]; exact hH z hzN (G.free z (Or.inl hz))
      have e2 : (s.g.cells x).hValue = fin (H x) := by rw [HI.lab x (HI.hp x htop.1)]; exact hH x hxN (G.free x (Or.inl htop.1))
      have e3 : (s.g.cells z).value = fin a := by
        have := (hgood z).ofT_toT; unfold tv at ha; rw [ha] at this; exact this.symm
      unfold Cell.total at h1
      rw [e1, e2, e3] at h1
      rcases hgood x with hv | ⟨b, _, hv⟩ <;> (unfold Grid.value at hv; rw [hv] at h1)
      · simp [Arith.add, XR.add, Arith.lt, XR.lt] at h1
      · simp [Arith.add, XR.add, Arith.lt, XR.lt] at h1
        unfold tv Grid.value; rw [hv, toT_fin]
        exact_mod_cast (by linarith : b ≤ t + n * eps)
  have hcell : ∀ k, (s.g.state k = .frozen ∨ k = x) → tv (expand cfg eikS s x).g k = tv s.g k := by
    intro k hk
    have : (expand cfg eikS s x).g.value k = s.g.value k := by
      refine expand_inv (I := fun t : St XR => t.g.value k = s.g.value k ∧ t.g.state k = .frozen) cfg eikS s x (fun _ _ h => h) ?_ ?_ |>.1
      · refine ⟨by simp [popped], ?_⟩
        rw [popped]; dsimp only; rw [Grid.state_setState]; split
        · rfl
        · next hne => exact hk.resolve_right hne
      · intro t j _ ht
        have e : (relax cfg eikS t j).g.cells k = t.g.cells k := relax_cells_protected (Or.inl ht.2)
        unfold Grid.value Grid.state at *
        rw [e]; exact ht
    unfold tv; rw [this]
  refine ⟨Or.inr ⟨x, ?_⟩, ?_, ?_⟩
  · rw [expand_eq]
    have hl : ∀ j ∈ s.g.shape.nbrs x, j < dims.prod := fun j hj => FMM.nbr_lt X.fits hxN (by rw [← hsh]; exact hj)
    have B := AStar.fold X (cfg := cfg) (x := x) (s.g.shape.nbrs x) (popped s x) hl (by
      have htvp : tv (popped s x).g = tv s.g := by funext k; unfold tv; simp [popped]
      have hst : ∀ k, (popped s x).g.state k = if k = x then .frozen else s.g.state k := fun k => by simp [popped, Grid.state_setState]
      rcases G.main with ⟨hh, h0, hg, ho, ht, _⟩ | ⟨x0, A⟩
      · have hxp : x = p := by have := htop.1; rw [hh] at this; simpa using this
        subst hxp
        refine ⟨hmap.trans (popped_sameMap s x), ?_, ?_, ?_, ?_, ?_, ?_, ?_, ?_⟩
        · intro k; simp only [popped, Grid.value_setState]; exact hgood k
        · intro y hy; simp [popped, hh] at hy
        · intro y hy; rw [hst] at hy; split at hy
          · next e => rw [e]; exact hp
          · rw [ho] at hy; cases hy
        · rw [hst, if_pos rfl]
        · rw [htvp]; exact h0
        · intro k hk; rw [hst] at hk; rw [htvp]; split at hk
          · cases hk
          · next e => exact ht k e
        · intro k hk; rw [hst] at hk; split at hk
          · cases hk
          · rw [ho] at hk; cases hk
        · intro z y hz hy _ _
          rw [hst] at hz; split at hz
          · next e => left; exact ⟨e, by rw [hsh, ← e]; exact hy⟩
          · rw [ho] at hz; cases hz
      · refine ⟨hmap.trans (popped_sameMap s x), ?_, ?_, ?_, ?_, ?_, ?_, ?_, ?_⟩
        · intro k; simp only [popped, Grid.value_setState]; exact hgood k
        · intro y hy; exact A.heap y (List.mem_of_mem_erase hy)
        · intro y hy; rw [hst] at hy; split at hy
          · next e => rw [e]; exact hxN
          · exact A.fzN y hy
        · rw [hst]; split
          · rfl
          · exact A.pf
        · rw [htvp]; exact A.p0
        · intro k hk; rw [hst] at hk; rw [htvp]; split at hk
          · cases hk
          · exact A.opn k hk
        · intro k hk; rw [hst] at hk; split at hk
          · cases hk
          · next e =>
            have := A.nar k hk
            exact (List.mem_erase_of_ne e).2 this
        · intro z y hz hy ho' hnf
          rw [hst] at hz
          by_cases hzx : z = x
          · left; exact ⟨hzx, by rw [hsh, ← hzx]; exact hy⟩
          · rw [if_neg hzx] at hz
            rw [hst] at hnf
            by_cases hyx : y = x
            · rw [if_pos hyx] at hnf; exact absurd rfl hnf
            · rw [if_neg hyx] at hnf
              rcases A.nb z y hz hy ho' hnf with ⟨_, hc⟩ | hc
              · simp at hc
              · right; rw [hst, if_neg hyx, htvp]; exact hc)
    exact ⟨B.map, B.good, B.heap, B.fzN, B.pf, B.p0, B.opn, B.nar, B.nb⟩
  · intro y t n hy r
    rw [expand_frozen_iff] at hy
    rw [hcell y hy]
    rcases hy with hy | rfl
    · exact G.fr y t n hy r
    · exact hx t n r
  · intro y hy
    rw [expand_frozen_iff] at hy
    have key : ∀ y ∈ (expand cfg eikS s x).heap, y = p ∨ g.occ y = false := by
      refine (expand_inv (I := fun t : St XR => SameMap g t.g ∧ ∀ y ∈ t.heap, y = p ∨ g.occ y = false) cfg eikS s x (fun _ _ h => h) ?_ ?_).2
      · exact ⟨hmap.trans (popped_sameMap s x), fun y hy => G.free y (Or.inl (List.mem_of_mem_erase hy))⟩
      · intro t j _ ht
        refine ⟨ht.1.trans (relax_sameMap cfg eikS t j), fun y hy => ?_⟩
        rcases relax_heap_mem hy with h1 | ⟨rfl, h1⟩
        · exact ht.2 y h1
        · right; rw [← SameMap.occ_eq ht.1]; exact h1
    rcases hy with hy | hy | rfl
    · exact key y hy
    · exact G.free y (Or.inr hy)
    · exact G.free y (Or.inl htop.1)

theorem AGoal.start (X : XInput dims g h v [p]) (hfr : Fresh g) (cfg : Cfg XR) : AGoal X (init cfg g [] [p]) := by
  refine ⟨Or.inl ⟨by rw [init_heap]; simp, ?_, ?_, ?_, ?_, init_sameMap _ _ _ _⟩, ?_, ?_⟩
  · unfold tv; rw [init_value, if_pos (by simp)]; rfl
  · intro k; rw [init_value]; split
    · exact Or.inr ⟨0, le_refl _, rfl⟩
    · rw [hfr.value]; exact Or.inl rfl
  · intro k; rw [init_state]; exact hfr.state k
  · intro k hk; unfold tv; rw [init_value, if_neg (by simpa using hk), hfr.value]; rfl
  · intro x t n hx; rw [init_state, hfr.state] at hx; cases hx
  · intro y hy
    rcases hy with hy | hy
    · rw [init_heap] at hy; left; simpa using hy
    · rw [init_state, hfr.state] at hy; cases hy

end FMM
open FMM

/-- **C62**, the part that holds: FMM, FMM*, SFMM and SFMM* with an ordered queue and one initial point, with a heuristic that never drops by more
than the time of a move.  Every FROZEN cell - in particular the goal, when the run stops there - has an arrival time that is at least the exact
one and at most the time of any route along the axes, plus the comparison margin per move of that route.  Missing: that this is the time FMM computes
(`C62_star_not_exact`). -/
theorem C62_goal_time_partial {dims : List Nat} {g : Grid XR} {h : ℝ} {v : Nat → ℝ} {p : Nat} (X : XInput dims g h v [p]) (hfr : Fresh g)
    (cfg : Cfg XR) (H : Nat → ℝ) (hH : IsHeur cfg g dims p H)
    (hcons : Consistent dims (Shape.mk' dims).idx2coord (fun i => g.occ i = false) (fun i => h / v i) p H) (n : Nat) (s : St XR)
    (hs : Steps (StepMin cfg) n (init cfg g [] [p]) s) (i : Nat) (hf : s.g.state i = .frozen) :
    (∀ U, X.problem.IsSolution U → i < dims.prod → U i ≤ toT (s.g.value i)) ∧
    ∀ t m, Route dims (Shape.mk' dims).idx2coord (fun i => g.occ i = false) (fun i => h / v i) p i t m →
      toT (s.g.value i) ≤ ((t + m * eps : ℝ) : WithTop ℝ) := by
  refine ⟨fun U hU hi => (C18_FMM X hfr U hU cfg n s (hs.mono (fun _ _ => StepMin.lib)) i hi).2, fun t m r => ?_⟩
  have := Steps.inv (I := fun s => AGoal X s ∧ HInv cfg g [p] s) (fun s t h ht => ⟨h.1.step X hH hcons h.2 ht, h.2.step ht.any⟩) hs
    ⟨AGoal.start X hfr cfg, HInv.start cfg hfr [p]⟩
  exact this.1.fr i t m hf r

/-- the squared distances of two adjacent cells to the same cell differ in one term only -/
theorem sqdist_adjacent : ∀ (k : Nat) (a b c : List Nat), AdjacentIn k a b → ∃ S x y : ℝ, 0 ≤ S ∧ |x - y| ≤ 1 ∧
    (List.zipWith (fun (x y : Nat) => ((x : ℝ) - (y : ℝ)) ^ 2) a c).sum = S + x^2 ∧
    (List.zipWith (fun (x y : Nat) => ((x : ℝ) - (y : ℝ)) ^ 2) b c).sum = S + y^2 := by
  have nn : ∀ (a c : List Nat), 0 ≤ (List.zipWith (fun (x y : Nat) => ((x : ℝ) - (y : ℝ)) ^ 2) a c).sum := by
    intro a
    induction a with
    | nil => intro c; simp
    | cons x a ih =>
      intro c
      cases c with
      | nil => simp
      | cons y c => simp only [List.zipWith_cons_cons, List.sum_cons]; have := ih c; positivity
  intro k
  induction k with
  | zero =>
    rintro (_ | ⟨x, a⟩) (_ | ⟨y, b⟩) c ⟨h1, h2, h3, h4⟩
    · simp at h2
    · simp at h1
    · simp at h1
    have hab : a = b := by
      apply List.ext_getElem (by simpa using h1)
      intro m hm hm'
      have := h4 (m+1) (by simp; exact hm) (by omega)
      simpa [List.getD_eq_getElem?_getD, hm, hm'] using this
    subst hab
    cases c with
    | nil => exact ⟨0, 0, 0, le_refl _, by simp, by simp, by simp⟩
    | cons z c =>
      refine ⟨_, (x:ℝ) - z, (y:ℝ) - z, nn a c, ?_, ?_, ?_⟩
      · simp only [List.getD_cons_zero] at h3
        have : ((x:ℝ) + 1 = y) ∨ ((y:ℝ) + 1 = x) := by rcases h3 with h | h <;> [left; right] <;> exact_mod_cast h
        rcases this with h | h <;> rw [← h] <;> ring_nf <;> simp
      · simp only [List.zipWith_cons_cons, List.sum_cons]; ring
      · simp only [List.zipWith_cons_cons, List.sum_cons]; ring
  | succ k ih =>
    rintro (_ | ⟨x, a⟩) (_ | ⟨y, b⟩) c ⟨h1, h2, h3, h4⟩
    · simp at h2
    · simp at h1
    · simp at h1
    have hxy : x = y := by have := h4 0 (by simp) (by omega); simpa using this
    subst hxy
    have hadj : AdjacentIn k a b := by
      refine ⟨by simpa using h1, by simpa using h2, by simpa using h3, fun m hm hne => ?_⟩
      have := h4 (m+1) (by simp; exact hm) (by omega)
      simpa using this
    cases c with
    | nil => exact ⟨0, 0, 0, le_refl _, by simp, by simp, by simp⟩
    | cons z c =>
      obtain ⟨S, u, w, hS, huw, e1, e2⟩ := ih a b c hadj
      refine ⟨((x:ℝ) - z)^2 + S, u, w, by positivity, huw, ?_, ?_⟩
      · simp only [List.zipWith_cons_cons, List.sum_cons, e1]; ring
      · simp only [List.zipWith_cons_cons, List.sum_cons, e2]; ring

/-- one move changes the distance to the goal by at most one cell -/
theorem euclid_adjacent {a b c : List Nat} (hab : AxisAdjacent a b) : euclid a c ≤ euclid b c + 1 := by
  obtain ⟨k, hk⟩ := hab
  obtain ⟨S, x, y, hS, hxy, e1, e2⟩ := sqdist_adjacent k a b c hk
  unfold euclid
  rw [e1, e2]
  have hy : |y| ≤ Real.sqrt (S + y^2) := Real.abs_le_sqrt (by linarith)
  have h0 : 0 ≤ Real.sqrt (S + y^2) := Real.sqrt_nonneg _
  apply Real.sqrt_le_iff.2 ⟨by linarith, ?_⟩
  have hs : Real.sqrt (S + y^2) ^ 2 = S + y^2 := Real.sq_sqrt (by positivity)
  have hx : |x| ≤ |y| + 1 := by
    calc |x| = |(x - y) + y| := by ring_nf
      _ ≤ |x - y| + |y| := abs_add_le _ _
      _ ≤ _ := by linarith
  have : x^2 ≤ (|y| + 1)^2 := by rw [← sq_abs x]; exact pow_le_pow_left₀ (abs_nonneg _) hx 2
  have : (|y|)^2 = y^2 := sq_abs y
  nlinarith

/-- **C62** for the DISTANCE heuristic with the library's table: enough that crossing any free cell takes at least 1 (`v ≤ leafsize`). -/
theorem C62_distance_partial {dims : List Nat} {g : Grid XR} {h : ℝ} {v : Nat → ℝ} {p goal : Nat} (X : XInput dims g h v [p]) (hfr : Fresh g)
    (hd : ∀ n ∈ dims, n ≤ 65536) (hgoal : goal < dims.prod) (old : Nat → XR) (cfg : Cfg XR) (hheur : cfg.heur = .distance)
    (hdist : cfg.hdist = getPrecomputedDistance (Shape.mk' dims) (precomputeDistances (Shape.mk' dims) old) ((Shape.mk' dims).idx2coord goal))
    (hslow : ∀ i, i < dims.prod → g.occ i = false → 1 ≤ h / v i) (n : Nat) (s : St XR)
    (hs : Steps (StepMin cfg) n (init cfg g [] [p]) s) (i : Nat) (hf : s.g.state i = .frozen) (t : ℝ) (m : Nat)
    (hr : Route dims (Shape.mk' dims).idx2coord (fun i => g.occ i = false) (fun i => h / v i) p i t m) :
    toT (s.g.value i) ≤ ((t + m * eps : ℝ) : WithTop ℝ) := by
  refine (C62_goal_time_partial X hfr cfg (fun i => euclid ((Shape.mk' dims).idx2coord i) ((Shape.mk' dims).idx2coord goal)) ?_ ?_ n s hs i hf).2 t m hr
  · intro k hk _
    unfold heurOf; rw [hheur]; dsimp only; rw [hdist]
    exact C41_heuristic_is_euclidean (X.fits.mono (by norm_num)) hd hk hgoal old
  · intro a b ha hb _ hfree hadj
    have := euclid_adjacent (c := (Shape.mk' dims).idx2coord goal) hadj
    have := hslow b hb hfree
    linarith

/-- **C62** for the TIME heuristic with the library's table: enough that all free cells have the same speed and the cells are at least 1 wide. -/
theorem C62_time_partial {dims : List Nat} {g : Grid XR} {h w : ℝ} {p goal : Nat} (X : XInput dims g h (fun _ => w) [p]) (hfr : Fresh g)
    (hd : ∀ n ∈ dims, n ≤ 65536) (hgoal : goal < dims.prod) (old : Nat → XR) (cfg : Cfg XR) (hheur : cfg.heur = .time)
    (hdist : cfg.hdist = getPrecomputedDistance (Shape.mk' dims) (precomputeDistances (Shape.mk' dims) old) ((Shape.mk' dims).idx2coord goal))
    (hp : g.occ p = false) (hh : 1 ≤ h) (n : Nat) (s : St XR)
    (hs : Steps (StepMin cfg) n (init cfg g [] [p]) s) (i : Nat) (hf : s.g.state i = .frozen) (t : ℝ) (m : Nat)
    (hr : Route dims (Shape.mk' dims).idx2coord (fun i => g.occ i = false) (fun _ => h / w) p i t m) :
    toT (s.g.value i) ≤ ((t + m * eps : ℝ) : WithTop ℝ) := by
  have hw : 0 < w := X.vpos (X.inside p (by simp)) hp
  refine (C62_goal_time_partial X hfr cfg (fun i => euclid ((Shape.mk' dims).idx2coord i) ((Shape.mk' dims).idx2coord goal) / w) ?_ ?_ n s hs i hf).2
    t m hr
  · intro k hk hfree
    have hk' : g.occ k = false := by rcases hfree with rfl | h <;> assumption
    unfold heurOf; rw [hheur]; dsimp only
    rw [hdist, C41_heuristic_is_euclidean (X.fits.mono (by norm_num)) hd hk hgoal old, X.speed k hk hk']
    show XR.div (XR.fin _) (XR.fin _) = _
    simp [XR.div, hw.ne']
  · intro a b ha hb _ hfree hadj
    have := euclid_adjacent (c := (Shape.mk' dims).idx2coord goal) hadj
    dsimp only
    rw [← add_div]
    apply div_le_div_of_nonneg_right _ hw.le
    linarith

end FMV
