import Verif.Props.HeapRun
import Verif.Props.FibHeap
/-!
# C57: a narrow band whose table of handles is too small, and the public `clear()`
-/
namespace FMV
open Arith FMM
variable {F : Type} [Arith F]

/-- **C57** (refutation, Fibonacci heap): as `C57_stale_handles`, for the other heap: an initial point that the table of handles has no place for is a write outside it. -/
theorem C57_stale_handles_fib (cfg : Cfg F) (g : Grid F) (pts : List Nat) (n : Nat) (b0 : FHeap) (hb : b0.hsize = n) (i : Nat) (hi : i ∈ pts)
    (hn : n ≤ i) : (bInit FHeap.band cfg g b0 pts).b.bad = true := by
  have mono : ∀ (c : BSt F FHeap) j, c.b.bad = true → (bInitPoint FHeap.band cfg c j).b.bad = true := by
    intro c j h
    show (c.b.bad || _) = true
    rw [h]; rfl
  have hs : ∀ (c : BSt F FHeap) j, (bInitPoint FHeap.band cfg c j).b.hsize = c.b.hsize := fun _ _ => rfl
  have keep : ∀ (l : List Nat) (c : BSt F FHeap), c.b.bad = true → (l.foldl (bInitPoint FHeap.band cfg) c).b.bad = true := by
    intro l
    induction l with
    | nil => intro c h; exact h
    | cons j l ih => intro c h; exact ih _ (mono c j h)
  have main : ∀ (l : List Nat) (c : BSt F FHeap), c.b.hsize = n → i ∈ l → (l.foldl (bInitPoint FHeap.band cfg) c).b.bad = true := by
    intro l
    induction l with
    | nil => intro c _ h; cases h
    | cons j l ih =>
      intro c hc h
      rcases List.mem_cons.1 h with rfl | h
      · rw [List.foldl_cons]
        apply keep
        show (c.b.bad || !decide (i < c.b.hsize)) = true
        rw [hc, decide_eq_false (by omega)]; simp
      · exact ih _ (by rw [hs]; exact hc) h
  exact main pts _ hb hi

/-- **C57** (refutation): `FMM::clear()` is public and empties the table of handles, but the solver still counts as set up: whatever the heap contained, on every grid and
with any initial point, the next `compute()` writes outside the table. -/
theorem C57_refuted_clear (cfg : Cfg F) (g : Grid F) (pts : List Nat) (hp : pts ≠ []) (b0 : DHeap) : (bInit DHeap.band cfg g b0.clear pts).b.bad = true := by
  obtain ⟨i, hi⟩ := List.exists_mem_of_ne_nil pts hp
  exact C57_stale_handles cfg g pts 0 b0.clear rfl i hi (Nat.zero_le i)

/-- **C57** (refutation, Fibonacci heap): the same. -/
theorem C57_refuted_clear_fib (cfg : Cfg F) (g : Grid F) (pts : List Nat) (hp : pts ≠ []) (b0 : FHeap) : (bInit FHeap.band cfg g b0.clear pts).b.bad = true := by
  obtain ⟨i, hi⟩ := List.exists_mem_of_ne_nil pts hp
  exact C57_stale_handles_fib cfg g pts 0 b0.clear rfl i hi (Nat.zero_le i)

/-- non-vacuity: a heap with a cell in it, and one initial point; `reset()` and `setup()` instead of `clear()` would be harmless -/
example (g : Grid F) : [3] ≠ ([] : List Nat) ∧ (DHeap.push g (DHeap.new 4) 0).bad = false ∧ (DHeap.push g ((DHeap.push g (DHeap.new 4) 0).clear.setMaxSize 4) 3).bad = false :=
  ⟨by simp, rfl, rfl⟩

end FMV
