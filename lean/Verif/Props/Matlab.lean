import Verif.Lemmas.Matlab
import Verif.Spec.Matlab
import Verif.Props.IO
import Verif.Props.Geometry
import Verif.Props.Benchmark
/-
C77: the MATLAB scripts and the text files.
-/
namespace FMV
open Console Text Arith Spec FMV.IO Matlab
variable {F : Type} [Arith F]

namespace Matlab
variable {num : Str → Option F} {nat : F → Option Nat}

theorem num_decimal (hN : MatlabNumbers num nat) {n : Nat} (h : n < 2^32) : num (decimal n) = some (ofNat n) := hN.read _ _ h ⟨decimal_number n, read_decimal n⟩

theorem word_decimal (n : Nat) : Word (decimal n) := Word.number (decimal_number n)


/-- the numbers at the beginning of the file of a path -/
theorem fscanf_savePath (hN : MatlabNumbers num nat) (fmt : F → Str) (rd : F → F) (g : Grid F) (path : List (List F)) (leaf' : F) (hnd : g.shape.ndims < 2^32)
    (hlt : ∀ d ∈ g.shape.dims, d < 2^32) (hleaf : ReadAs num (fmt g.leaf) leaf') (hp : ∀ p ∈ path, ∀ x ∈ p, ReadAs num (fmt x) (rd x)) :
    fscanf num (savePath fmt g path) = leaf' :: ofNat g.shape.ndims :: (g.shape.dims.map ofNat ++ (path.map (fun p => p.map rd)).flatten) := by
  unfold fscanf savePath
  have hrow : ∀ p ∈ path, ∀ r, Stop r → words (p.flatMap (fun x => fmt x ++ ['\t']) ++ r) = p.map fmt ++ words r :=
    fun p hpp r _ => words_tabs fmt p (fun x hx => ⟨(hp p hpp x hx).1, (hp p hpp x hx).2.1⟩) r
  have hpath : words (path.flatMap (fun p => '\n' :: p.flatMap (fun x => fmt x ++ ['\t']))) = path.flatMap (fun p => p.map fmt) := by
    have := words_rows _ _ path hrow (r := []) (Or.inl rfl)
    simpa [words_nil] using this
  have hdimw : words (g.shape.dims.flatMap (fun d => '\n' :: decimal d ++ ['\t']) ++ path.flatMap (fun p => '\n' :: p.flatMap (fun x => fmt x ++ ['\t']))) =
      g.shape.dims.map decimal ++ path.flatMap (fun p => p.map fmt) := by
    rw [← hpath]
    generalize path.flatMap (fun p => '\n' :: p.flatMap (fun x => fmt x ++ ['\t'])) = r
    induction g.shape.dims with
    | nil => rfl
    | cons d ds ih =>
      rw [List.flatMap_cons, List.append_assoc, List.append_assoc, List.cons_append, words_space (by decide), List.singleton_append,
        words_token (word_decimal d) (stop_tab _), words_space (by decide), ih]
      rfl
  rw [List.append_assoc, List.append_assoc, words_token ⟨hleaf.1, hleaf.2.1⟩ (by exact stop_nl _), List.cons_append, words_space (by decide), numbers_cons num hleaf.2.2]
  have hst : Stop (g.shape.dims.flatMap (fun d => '\n' :: decimal d ++ ['\t']) ++ path.flatMap (fun p => '\n' :: p.flatMap (fun x => fmt x ++ ['\t']))) := by
    cases g.shape.dims with
    | nil => have := stop_lines (fun p : List F => p.flatMap (fun x => fmt x ++ ['\t'])) path (r := []) (Or.inl rfl); simpa using this
    | cons a as => exact stop_nl _
  rw [words_token (word_decimal _) hst, numbers_cons num (num_decimal hN hnd), hdimw,
    numbers_append num decimal ofNat _ (fun d hd => num_decimal hN (hlt d hd))]
  congr 3
  have := numbers_flat num (fun p : List F => p.map fmt) (fun p => p.map rd) path (fun p hpp r => numbers_append num fmt rd p (fun x hx => (hp p hpp x hx).2.2) r) []
  rw [List.append_nil] at this
  rw [this, List.flatMap_def]
  simp [numbers]

/-- the numbers of the file of a path with velocities -/
theorem fscanf_savePathVelocity (hN : MatlabNumbers num nat) (fmt : F → Str) (rd : F → F) (g : Grid F) (path : List (List F × F)) (leaf' : F) (hnd : g.shape.ndims < 2^32)
    (hlt : ∀ d ∈ g.shape.dims, d < 2^32) (hleaf : ReadAs num (fmt g.leaf) leaf') (hp : ∀ p ∈ path, (∀ x ∈ p.1, ReadAs num (fmt x) (rd x)) ∧ ReadAs num (fmt p.2) (rd p.2)) :
    fscanf num (savePathVelocity fmt g path) = leaf' :: ofNat g.shape.ndims :: (g.shape.dims.map ofNat ++ (path.map (fun p => p.1.map rd ++ [rd p.2])).flatten) := by
  unfold fscanf savePathVelocity
  have hrow : ∀ p ∈ path, ∀ r, Stop r → words (p.1.flatMap (fun x => fmt x ++ ['\t']) ++ fmt p.2 ++ r) = (p.1.map fmt ++ [fmt p.2]) ++ words r := by
    intro p hpp r hr
    rw [List.append_assoc, words_tabs fmt p.1 (fun x hx => ⟨((hp p hpp).1 x hx).1, ((hp p hpp).1 x hx).2.1⟩), words_token ⟨(hp p hpp).2.1, (hp p hpp).2.2.1⟩ hr]
    simp
  have hpath : words (path.flatMap (fun p => '\n' :: (p.1.flatMap (fun x => fmt x ++ ['\t']) ++ fmt p.2))) = path.flatMap (fun p => p.1.map fmt ++ [fmt p.2]) := by
    have := words_rows (fun p : List F × F => p.1.flatMap (fun x => fmt x ++ ['\t']) ++ fmt p.2) _ path hrow (r := []) (Or.inl rfl)
    simpa [words_nil] using this
  have hst : Stop (path.flatMap (fun p => '\n' :: (p.1.flatMap (fun x => fmt x ++ ['\t']) ++ fmt p.2))) := by
    have := stop_lines (fun p : List F × F => p.1.flatMap (fun x => fmt x ++ ['\t']) ++ fmt p.2) path (r := []) (Or.inl rfl); simpa using this
  simp only [List.append_assoc, List.cons_append]
  rw [words_token ⟨hleaf.1, hleaf.2.1⟩ (by exact stop_nl _), words_space (by decide), numbers_cons num hleaf.2.2,
    words_token (word_decimal _) (stop_lines decimal _ hst), numbers_cons num (num_decimal hN hnd), words_lines decimal _ (fun d _ => word_decimal d) hst, hpath,
    numbers_append num decimal ofNat _ (fun d hd => num_decimal hN (hlt d hd))]
  congr 3
  have := numbers_flat num (fun p : List F × F => p.1.map fmt ++ [fmt p.2]) (fun p => p.1.map rd ++ [rd p.2]) path (fun p hpp r => by
    rw [List.append_assoc, numbers_append num fmt rd p.1 (fun x hx => ((hp p hpp).1 x hx).2.2), List.singleton_append, numbers_cons num (hp p hpp).2.2.2]
    simp) []
  rw [List.append_nil] at this
  rw [this, List.flatMap_def]
  simp [numbers]

/-- element of the data after the header -/
theorem data_get {α : Type} (x y : α) (ds rest : List α) (k : Nat) : (x :: y :: (ds ++ rest))[ds.length + 2 + k]? = rest[k]? := by
  rw [show ds.length + 2 + k = (ds.length + k) + 1 + 1 from by omega, List.getElem?_cons_succ, List.getElem?_cons_succ, List.getElem?_append_right (by omega)]
  congr 1; omega

theorem rowCount_mul (nd n c : Nat) (hc : c ≠ 0) (hm : n % c = 0) : rowCount (nd + 2 + n) (nd + 2) c = some (n / c) := by
  unfold rowCount
  rw [show nd + 2 + n - (nd + 2) = n from by omega, if_pos ⟨by omega, hc, hm⟩]

end Matlab

/-- **C77**: `parsepath` gives a matrix with one row per point of the path written by `savePath`, holding its coordinates (as they are read back) plus one. -/
theorem C77_path (num : Str → Option F) (nat : F → Option Nat) (hN : MatlabNumbers num nat) (fmt : F → Str) (rd : F → F) (g : Grid F) (dims : List Nat)
    (path : List (List F)) (leaf' : F) (hshape : g.shape = Shape.mk' dims) (hdims : dims ≠ []) (hnd : dims.length < 2^32) (hlt : ∀ d ∈ dims, d < 2^32)
    (hleaf : ReadAs num (fmt g.leaf) leaf') (hp : ∀ p ∈ path, p.length = dims.length ∧ ∀ x ∈ p, ReadAs num (fmt x) (rd x)) :
    ∃ M, parsepath num nat (savePath fmt g path) = some M ∧ M.rows = path.length ∧ M.cols = dims.length ∧
      ∀ k p j x, path[k]? = some p → p[j]? = some x → M.get k j = add (rd x) (ofNat 1) := by
  have h1 : g.shape.ndims = dims.length := by rw [hshape]; rfl
  have h2 : g.shape.dims = dims := by rw [hshape]; rfl
  have hf := fscanf_savePath hN fmt rd g path leaf' (by rw [h1]; exact hnd) (by rw [h2]; exact hlt) hleaf (fun p hpp => (hp p hpp).2)
  rw [h1, h2] at hf
  have hnd0 : 0 < dims.length := List.length_pos_iff.2 hdims
  set body := (path.map (fun p => p.map rd)).flatten with hbody
  have hul : ∀ l ∈ path.map (fun p => p.map rd), l.length = dims.length := by
    intro l hl
    obtain ⟨p, hpp, rfl⟩ := List.mem_map.1 hl
    rw [List.length_map]; exact (hp p hpp).1
  have hlen : body.length = path.length * dims.length := by rw [hbody, flat_length _ _ hul, List.length_map]
  set data := fscanf num (savePath fmt g path) with hdata
  have hdl : data.length = dims.length + 2 + path.length * dims.length := by
    rw [hf]; simp only [List.length_cons, List.length_append, List.length_map]; omega
  have hget : ∀ k p j x, path[k]? = some p → p[j]? = some x → data[dims.length + 2 + (k * dims.length + j)]? = some (rd x) := by
    intro k p j x hk hj
    have hpm : p ∈ path := List.mem_of_getElem? hk
    have hj' : j < dims.length := by
      have := (List.getElem?_eq_some_iff.1 hj).1
      rw [(hp p hpm).1] at this; exact this
    rw [hf]
    have := data_get leaf' (ofNat dims.length) (dims.map (ofNat : Nat → F)) body (k * dims.length + j)
    rw [List.length_map] at this
    rw [this, hbody, flat_get _ _ hul _ _ hj']
    simp [hk, hj]
  have key : ∀ n ≤ path.length, ∃ M, (List.range n).foldlM (fun m k => fillRow data dims.length (dims.length + 3 + k * dims.length) (k + 1) m) (zeros path.length dims.length) = some M ∧
      M.rows = path.length ∧ M.cols = dims.length ∧ ∀ k p j x, k < n → path[k]? = some p → p[j]? = some x → M.get k j = add (rd x) (ofNat 1) := by
    intro n
    induction n with
    | zero => intro _; exact ⟨_, rfl, rfl, rfl, by intro k p j x hk; omega⟩
    | succ n ih =>
      intro hn
      obtain ⟨M, e1, e2, e3, e4⟩ := ih (by omega)
      set q := path[n]'(by omega) with hq
      have hqn : path[n]? = some q := List.getElem?_eq_getElem (by omega)
      have hql : q.length = dims.length := (hp q (List.mem_of_getElem? hqn)).1
      obtain ⟨M', e5, e6, e7, e8⟩ := fillRow_ok data dims.length (dims.length + 3 + n * dims.length) (n + 1) M (fun j => rd (q.getD j zero)) (by omega) (by omega) e3 (by omega)
        (fun j hj => by
          rw [← hget n q j (q.getD j zero) hqn (by rw [List.getD_eq_getElem?_getD, List.getElem?_eq_getElem (by omega)]; rfl)]
          congr 1; omega)
      refine ⟨M', ?_, by rw [e6, e2], e7, ?_⟩
      · rw [List.range_succ, List.foldlM_append, e1]
        simp only [Option.bind_eq_bind, Option.bind_some, List.foldlM_cons, e5, List.foldlM_nil]
        rfl
      · intro k p j x hk hkp hjx
        have hj' : j < dims.length := by
          have := (List.getElem?_eq_some_iff.1 hjx).1
          rw [(hp p (List.mem_of_getElem? hkp)).1] at this; exact this
        rw [e8]
        by_cases hkn : k = n
        · subst hkn
          rw [if_pos ⟨by omega, hj'⟩]
          rw [hqn] at hkp
          obtain rfl := Option.some.inj hkp
          rw [List.getD_eq_getElem?_getD, hjx]; rfl
        · rw [if_neg (by omega)]
          exact e4 k p j x (by omega) hkp hjx
  obtain ⟨M, e1, e2, e3, e4⟩ := key path.length le_rfl
  refine ⟨M, ?_, e2, e3, fun k p j x hk hj => e4 k p j x (List.getElem?_eq_some_iff.1 hk).1 hk hj⟩
  unfold parsepath
  rw [← hdata]
  have d1 : elem data 1 = some leaf' := by rw [hf]; rfl
  have d2 : elem data 2 = some (ofNat dims.length) := by rw [hf]; rfl
  have d3 : sizes nat data dims.length = some dims := by rw [hf]; exact sizes_ok nat dims _ _ _ (fun d hd => hN.size d (hlt d hd))
  have d4 : rowCount data.length (dims.length + 2) dims.length = some path.length := by
    rw [hdl, rowCount_mul _ _ _ (by omega) (Nat.mul_mod_left _ _), Nat.mul_div_cancel _ hnd0]
  simp only [d1, d2, d3, d4, Option.bind_eq_bind, Option.bind_some, hN.size _ hnd]
  rw [hdl, rangeLen_eq _ _ _ hnd0]
  exact e1

namespace Matlab
variable {num : Str → Option F} {nat : F → Option Nat}

/-- the loop of `parsepathvel` -/
theorem pathvel_loop (data : List F) (nd rows : Nat) (path : List (List F × F)) (rd : F → F) (hrows : path.length ≤ rows)
    (hp : ∀ p ∈ path, p.1.length = nd)
    (hget : ∀ k p j x, path[k]? = some p → p.1[j]? = some x → data[nd + 2 + (k * (nd + 1) + j)]? = some (rd x))
    (hvel : ∀ k p, path[k]? = some p → data[nd + 2 + (k * (nd + 1) + nd)]? = some (rd p.2)) :
    ∃ M, (List.range path.length).foldlM (fun (m : Mat F × List F) k => do
        let p ← fillRow data nd (nd + 3 + k * (nd + 1)) (k + 1) m.1
        let v ← elem data (nd + 3 + k * (nd + 1) + nd)
        some (p, m.2 ++ [v])) (zeros rows nd, []) = some (M, path.map (fun p => rd p.2)) ∧ M.rows = rows ∧ M.cols = nd ∧
      (∀ k p j x, path[k]? = some p → p.1[j]? = some x → M.get k j = add (rd x) (ofNat 1)) ∧ ∀ k j, path.length ≤ k → M.get k j = zero := by
  have key : ∀ n ≤ path.length, ∃ M, (List.range n).foldlM (fun (m : Mat F × List F) k => do
        let p ← fillRow data nd (nd + 3 + k * (nd + 1)) (k + 1) m.1
        let v ← elem data (nd + 3 + k * (nd + 1) + nd)
        some (p, m.2 ++ [v])) (zeros rows nd, []) = some (M, (path.take n).map (fun p => rd p.2)) ∧ M.rows = rows ∧ M.cols = nd ∧
      (∀ k p j x, k < n → path[k]? = some p → p.1[j]? = some x → M.get k j = add (rd x) (ofNat 1)) ∧ ∀ k j, n ≤ k → M.get k j = zero := by
    intro n
    induction n with
    | zero => intro _; exact ⟨_, rfl, rfl, rfl, (by intro k p j x hk; omega), fun _ _ _ => rfl⟩
    | succ n ih =>
      intro hn
      obtain ⟨M, e1, e2, e3, e4, e5⟩ := ih (by omega)
      set q := path[n]'(by omega) with hq
      have hqn : path[n]? = some q := List.getElem?_eq_getElem (by omega)
      have hql : q.1.length = nd := hp q (List.mem_of_getElem? hqn)
      obtain ⟨M', f1, f2, f3, f4⟩ := fillRow_ok data nd (nd + 3 + n * (nd + 1)) (n + 1) M (fun j => rd (q.1.getD j zero)) (by omega) (by omega) e3 (by omega)
        (fun j hj => by
          rw [← hget n q j (q.1.getD j zero) hqn (by rw [List.getD_eq_getElem?_getD, List.getElem?_eq_getElem (by omega)]; rfl)]
          congr 1; omega)
      have hv : elem data (nd + 3 + n * (nd + 1) + nd) = some (rd q.2) := by
        rw [elem_get _ _ (by omega), ← hvel n q hqn]
        congr 1; omega
      refine ⟨M', ?_, by rw [f2, e2], f3, ?_, ?_⟩
      · rw [List.range_succ, List.foldlM_append, e1]
        simp only [Option.bind_eq_bind, Option.bind_some, List.foldlM_cons, f1, hv, List.foldlM_nil]
        rw [List.take_add_one, hqn, List.map_append]
        rfl
      · intro k p j x hk hkp hjx
        have hj' : j < nd := by
          have := (List.getElem?_eq_some_iff.1 hjx).1
          rw [hp p (List.mem_of_getElem? hkp)] at this; exact this
        rw [f4]
        by_cases hkn : k = n
        · subst hkn
          rw [if_pos ⟨by omega, hj'⟩]
          rw [hqn] at hkp
          obtain rfl := Option.some.inj hkp
          rw [List.getD_eq_getElem?_getD, hjx]; rfl
        · rw [if_neg (by omega)]
          exact e4 k p j x (by omega) hkp hjx
      · intro k j hk
        rw [f4, if_neg (by omega)]
        exact e5 k j (by omega)
  obtain ⟨M, e1, e2, e3, e4, e5⟩ := key path.length le_rfl
  rw [List.take_length] at e1
  exact ⟨M, e1, e2, e3, fun k p j x hk hj => e4 k p j x (List.getElem?_eq_some_iff.1 hk).1 hk hj, e5⟩

/-- `parsepathvel` applied to what `savePathVelocity` writes -/
theorem parsepathvel_save (hN : MatlabNumbers num nat) (fmt : F → Str) (rd : F → F) (g : Grid F) (dims : List Nat)
    (path : List (List F × F)) (leaf' : F) (hshape : g.shape = Shape.mk' dims) (hdims : dims ≠ []) (hnd : dims.length < 2^32) (hlt : ∀ d ∈ dims, d < 2^32)
    (hleaf : ReadAs num (fmt g.leaf) leaf')
    (hp : ∀ p ∈ path, p.1.length = dims.length ∧ (∀ x ∈ p.1, ReadAs num (fmt x) (rd x)) ∧ ReadAs num (fmt p.2) (rd p.2)) :
    if path.length % dims.length = 0 then
      ∃ M, parsepathvel num nat (savePathVelocity fmt g path) = some (M, path.map (fun p => rd p.2)) ∧ M.rows = path.length + path.length / dims.length ∧
        M.cols = dims.length ∧ (∀ k p j x, path[k]? = some p → p.1[j]? = some x → M.get k j = add (rd x) (ofNat 1)) ∧ ∀ k j, path.length ≤ k → M.get k j = zero
    else parsepathvel num nat (savePathVelocity fmt g path) = none := by
  have h1 : g.shape.ndims = dims.length := by rw [hshape]; rfl
  have h2 : g.shape.dims = dims := by rw [hshape]; rfl
  have hf := fscanf_savePathVelocity hN fmt rd g path leaf' (by rw [h1]; exact hnd) (by rw [h2]; exact hlt) hleaf (fun p hpp => (hp p hpp).2)
  rw [h1, h2] at hf
  have hnd0 : 0 < dims.length := List.length_pos_iff.2 hdims
  set body := (path.map (fun p => p.1.map rd ++ [rd p.2])).flatten with hbody
  have hul : ∀ l ∈ path.map (fun p => p.1.map rd ++ [rd p.2]), l.length = dims.length + 1 := by
    intro l hl
    obtain ⟨p, hpp, rfl⟩ := List.mem_map.1 hl
    rw [List.length_append, List.length_map, (hp p hpp).1]; rfl
  have hlen : body.length = path.length * (dims.length + 1) := by rw [hbody, flat_length _ _ hul, List.length_map]
  set data := fscanf num (savePathVelocity fmt g path) with hdata
  have hdl : data.length = dims.length + 2 + path.length * (dims.length + 1) := by
    rw [hf]; simp only [List.length_cons, List.length_append, List.length_map]; omega
  have hall : ∀ k p j, path[k]? = some p → j < dims.length + 1 → data[dims.length + 2 + (k * (dims.length + 1) + j)]? = (p.1.map rd ++ [rd p.2])[j]? := by
    intro k p j hk hj
    rw [hf]
    have := data_get leaf' (ofNat dims.length) (dims.map (ofNat : Nat → F)) body (k * (dims.length + 1) + j)
    rw [List.length_map] at this
    rw [this, hbody, flat_get _ _ hul _ _ hj]
    simp [hk]
  have d1 : elem data 1 = some leaf' := by rw [hf]; rfl
  have d2 : elem data 2 = some (ofNat dims.length) := by rw [hf]; rfl
  have d3 : sizes nat data dims.length = some dims := by rw [hf]; exact sizes_ok nat dims _ _ _ (fun d hd => hN.size d (hlt d hd))
  have hmod : (path.length * (dims.length + 1)) % dims.length = path.length % dims.length := by
    rw [Nat.mul_succ, Nat.mul_add_mod_self_right]
  split
  next hm =>
    have hdiv : path.length * (dims.length + 1) / dims.length = path.length + path.length / dims.length := by
      rw [Nat.mul_succ, Nat.add_comm, Nat.add_mul_div_right _ _ hnd0, Nat.add_comm]
    have d4 : rowCount data.length (dims.length + 2) dims.length = some (path.length + path.length / dims.length) := by
      rw [hdl, rowCount_mul _ _ _ (by omega) (by rw [hmod]; exact hm), hdiv]
    obtain ⟨M, e1, e2, e3, e4, e5⟩ := pathvel_loop data dims.length (path.length + path.length / dims.length) path rd (Nat.le_add_right _ _) (fun p hpp => (hp p hpp).1)
      (fun k p j x hk hj => by
        have hj' : j < dims.length := by
          have := (List.getElem?_eq_some_iff.1 hj).1
          rw [(hp p (List.mem_of_getElem? hk)).1] at this; exact this
        rw [hall k p j hk (by omega), List.getElem?_append_left (by rw [List.length_map, (hp p (List.mem_of_getElem? hk)).1]; exact hj')]
        simp [hj])
      (fun k p hk => by
        rw [hall k p _ hk (by omega), List.getElem?_append_right (by rw [List.length_map, (hp p (List.mem_of_getElem? hk)).1])]
        simp [(hp p (List.mem_of_getElem? hk)).1])
    refine ⟨M, ?_, e2, e3, e4, e5⟩
    unfold parsepathvel
    rw [← hdata]
    simp only [d1, d2, d3, d4, Option.bind_eq_bind, Option.bind_some, hN.size _ hnd]
    rw [hdl, rangeLen_eq _ _ _ (by omega)]
    exact e1
  next hm =>
    have d4 : rowCount data.length (dims.length + 2) dims.length = none := by
      unfold rowCount
      rw [hdl, show dims.length + 2 + path.length * (dims.length + 1) - (dims.length + 2) = path.length * (dims.length + 1) from by omega, if_neg]
      rintro ⟨_, _, h⟩
      rw [hmod] at h
      exact hm h
    unfold parsepathvel
    rw [← hdata]
    simp only [d1, d2, d3, d4, Option.bind_eq_bind, Option.bind_some, Option.bind_none, hN.size _ hnd]

end Matlab

/-- **C77** (a path with velocities): if the number of dimensions divides the number of points, `parsepathvel` gives the velocities, and the points plus one in the first rows
(what is missing: the matrix has further rows of zeros, and for another number of points the script fails). -/
theorem C77_pathvel_partial (num : Str → Option F) (nat : F → Option Nat) (hN : MatlabNumbers num nat) (fmt : F → Str) (rd : F → F) (g : Grid F) (dims : List Nat)
    (path : List (List F × F)) (leaf' : F) (hshape : g.shape = Shape.mk' dims) (hdims : dims ≠ []) (hnd : dims.length < 2^32) (hlt : ∀ d ∈ dims, d < 2^32)
    (hleaf : ReadAs num (fmt g.leaf) leaf')
    (hp : ∀ p ∈ path, p.1.length = dims.length ∧ (∀ x ∈ p.1, ReadAs num (fmt x) (rd x)) ∧ ReadAs num (fmt p.2) (rd p.2)) (hdvd : dims.length ∣ path.length) :
    ∃ M vel, parsepathvel num nat (savePathVelocity fmt g path) = some (M, vel) ∧ vel = path.map (fun p => rd p.2) ∧ M.cols = dims.length ∧
      ∀ k p j x, path[k]? = some p → p.1[j]? = some x → M.get k j = add (rd x) (ofNat 1) := by
  have := parsepathvel_save hN fmt rd g dims path leaf' hshape hdims hnd hlt hleaf hp
  rw [if_pos (Nat.mod_eq_zero_of_dvd hdvd)] at this
  obtain ⟨M, e1, -, e3, e4, -⟩ := this
  exact ⟨M, _, e1, rfl, e3, e4⟩

/-- **C77** fails for paths with velocities: a path with a number of points that the number of dimensions does not divide makes `parsepathvel` fail, and every other
path that is not empty gets additional points with all coordinates 0 (which is outside the grid, since the scripts count from 1). -/
theorem C77_refuted_pathvel (num : Str → Option F) (nat : F → Option Nat) (hN : MatlabNumbers num nat) (fmt : F → Str) (rd : F → F) (g : Grid F) (dims : List Nat)
    (path : List (List F × F)) (leaf' : F) (hshape : g.shape = Shape.mk' dims) (hdims : dims ≠ []) (hnd : dims.length < 2^32) (hlt : ∀ d ∈ dims, d < 2^32)
    (hleaf : ReadAs num (fmt g.leaf) leaf')
    (hp : ∀ p ∈ path, p.1.length = dims.length ∧ (∀ x ∈ p.1, ReadAs num (fmt x) (rd x)) ∧ ReadAs num (fmt p.2) (rd p.2)) (hne : path ≠ []) :
    (¬ dims.length ∣ path.length → parsepathvel num nat (savePathVelocity fmt g path) = none) ∧
    (dims.length ∣ path.length → ∃ M vel, parsepathvel num nat (savePathVelocity fmt g path) = some (M, vel) ∧
      path.length < M.rows ∧ ∀ k j, path.length ≤ k → k < M.rows → M.get k j = zero) := by
  have := parsepathvel_save hN fmt rd g dims path leaf' hshape hdims hnd hlt hleaf hp
  constructor
  · intro h
    rwa [if_neg (fun h0 => h (Nat.dvd_of_mod_eq_zero h0))] at this
  · intro h
    rw [if_pos (Nat.mod_eq_zero_of_dvd h)] at this
    obtain ⟨M, e1, e2, -, -, e5⟩ := this
    refine ⟨M, _, e1, ?_, fun k j hk _ => e5 k j hk⟩
    have hpos : 0 < path.length / dims.length := Nat.div_pos (Nat.le_of_dvd (List.length_pos_iff.2 hne) h) (List.length_pos_iff.2 hdims)
    omega

end FMV
