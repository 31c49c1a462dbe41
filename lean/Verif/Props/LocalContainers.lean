import Verif.Spec.LocalContainers
import Mathlib.Algebra.Ring.Rat
import Mathlib.Data.List.Nodup
import Mathlib.Tactic.Abel
import Mathlib.Tactic.NormNum
/-
Theorems about local matrices and weighted accumulation views (C30, C31).
-/
namespace Verif

open LocalContainers LocalContainers.Spec

variable {K : Type} [Ring K]

/-! ### Storage -/

omit [Ring K] in
theorem LocalContainers.pos_inj (m : LocalMatrix K) {i j i' j' : Nat} (hi : i < m.rows) (hi' : i' < m.rows) (h : m.pos i j = m.pos i' j') :
    i = i' ∧ j = j' := by
  unfold LocalMatrix.pos at h
  have hr : 0 < m.rows := by omega
  have e1 : (j * m.rows + i) % m.rows = i := by
    rw [Nat.mul_comm, Nat.mul_add_mod, Nat.mod_eq_of_lt hi]
  have e2 : (j' * m.rows + i') % m.rows = i' := by
    rw [Nat.mul_comm, Nat.mul_add_mod, Nat.mod_eq_of_lt hi']
  have hii : i = i' := by rw [← e1, ← e2, h]
  subst hii
  refine ⟨rfl, ?_⟩
  exact Nat.eq_of_mul_eq_mul_right hr (by omega)

omit [Ring K] in
theorem LocalContainers.pos_lt (m : LocalMatrix K) {i j : Nat} (hi : i < m.rows) (hj : j < m.cols) : m.pos i j < m.rows * m.cols := by
  unfold LocalMatrix.pos
  calc j * m.rows + i < j * m.rows + m.rows := by omega
    _ = (j + 1) * m.rows := by rw [Nat.add_mul, Nat.one_mul]
    _ ≤ m.cols * m.rows := Nat.mul_le_mul_right _ hj
    _ = _ := Nat.mul_comm _ _

/-- C30, storage: in a matrix with one cell per entry every entry inside the shape can be read; writing one changes exactly this one and
keeps the storage well-formed; construction and `resize` give well-formed matrices of the wanted shape, for all shapes including empty
ones; and `*=` multiplies every entry. -/
theorem C30_storage (m : LocalMatrix K) (hm : WellFormed m) (i j : Nat) (hi : i < m.rows) (hj : j < m.cols) (v : K) :
    (m.get? i j).isSome ∧ (m.set i j v).get? i j = some v ∧ WellFormed (m.set i j v) ∧
    (∀ i' j', i' < m.rows → j' < m.cols → (i', j') ≠ (i, j) → (m.set i j v).get? i' j' = m.get? i' j') ∧
    (∀ x, (m.scale x).get? i j = (m.get? i j).map (x * ·)) ∧
    (∀ r c t, WellFormed (LocalMatrix.mk' r c t) ∧ ∀ i j, i < r → j < c → (LocalMatrix.mk' (K := K) r c t).get? i j = some t) ∧
    (∀ r c, WellFormed (m.resize r c) ∧ (m.resize r c).rows = r ∧ (m.resize r c).cols = c) := by
  have hlt : m.pos i j < m.container.length := by rw [hm]; exact pos_lt m hi hj
  refine ⟨?_, ?_, ?_, ?_, ?_, ?_, ?_⟩
  · unfold LocalMatrix.get?
    rw [List.getElem?_eq_getElem hlt]; rfl
  · show (m.container.set (m.pos i j) v)[m.pos i j]? = _
    rw [List.getElem?_set_self hlt]
  · show (m.container.set _ _).length = _
    rw [List.length_set]; exact hm
  · intro i' j' hi' hj' hne
    show (m.container.set (m.pos i j) v)[m.pos i' j']? = _
    rw [List.getElem?_set_ne]
    · rfl
    · intro h
      obtain ⟨h1, h2⟩ := pos_inj m hi hi' h
      exact hne (by rw [h1, h2])
  · intro x
    show (m.container.map _)[_]? = _
    rw [List.getElem?_map]; rfl
  · intro r c t
    have hw : WellFormed (LocalMatrix.mk' r c t) := List.length_replicate ..
    refine ⟨hw, fun i j hi hj => ?_⟩
    have := pos_lt (LocalMatrix.mk' r c t) hi hj
    show (List.replicate (r * c) t)[_]? = _
    rw [List.getElem?_replicate]
    exact if_pos this
  · intro r c
    refine ⟨?_, rfl, rfl⟩
    show (m.container.take (r * c) ++ List.replicate (r * c - m.container.length) 0).length = r * c
    rw [List.length_append, List.length_take, List.length_replicate]
    omega

example : WellFormed (⟨[1, 2, 3, 4, 5, 6], 2, 3⟩ : LocalMatrix ℚ) := rfl
example : (⟨[1, 2, 3, 4, 5, 6], 2, 3⟩ : LocalMatrix ℚ).get? 1 2 = some 6 := by decide

/-! ### Iteration -/

theorem LocalContainers.increment_eq (c k : Nat) (hc : 0 < c) : increment c (k / c, k % c) = ((k + 1) / c, (k + 1) % c) := by
  unfold increment
  have h1 := Nat.div_add_mod k c
  have h2 := Nat.mod_lt k hc
  dsimp only
  split
  · rename_i h
    have e : k + 1 = c * (k / c) + (k % c + 1) := by omega
    rw [e, Nat.mul_add_div hc, Nat.mul_add_mod, Nat.div_eq_of_lt (show k % c + 1 < c by omega), Nat.mod_eq_of_lt (show k % c + 1 < c by omega)]
    rfl
  · rename_i h
    have e : k + 1 = c * (k / c + 1) := by rw [Nat.mul_add]; omega
    rw [e, Nat.mul_div_cancel_left _ hc, Nat.mul_mod_right]

theorem LocalContainers.iterate_eq (r c : Nat) (hc : 0 < c) : ∀ (n k : Nat), k ≤ r * c → r * c - k < n →
    iterate r c n (k / c, k % c) = some ((List.range' k (r * c - k)).map fun k => (k / c, k % c))
  | 0, k, _, h => by omega
  | n + 1, k, hk, h => by
    unfold iterate
    have hend : endIt r c = (r, 0) := by unfold endIt; rw [if_pos hc]
    rw [hend]
    by_cases he : k = r * c
    · subst he
      rw [Nat.mul_div_cancel _ hc, Nat.mul_mod_left, if_pos rfl, Nat.sub_self]
      rfl
    · have hlt : k < r * c := by omega
      have hne : (k / c, k % c) ≠ (r, 0) := by
        intro h'
        injection h' with h1 h2
        have := Nat.div_add_mod k c
        rw [h1, h2, Nat.mul_comm] at this
        omega
      rw [if_neg hne, increment_eq c k hc, iterate_eq r c hc n (k + 1) (by omega) (by omega)]
      rw [show r * c - k = (r * c - (k + 1)) + 1 by omega, List.range'_succ]
      rfl

theorem LocalContainers.rowMajor_eq (r c : Nat) (hc : 0 < c) : rowMajor r c = (List.range (r * c)).map fun k => (k / c, k % c) := by
  induction r with
  | zero => simp [rowMajor]
  | succ r ih =>
    unfold rowMajor at ih ⊢
    rw [List.range_succ, List.flatMap_append, ih, Nat.add_mul, Nat.one_mul, List.range_add, List.map_append, List.map_map]
    congr 1
    simp only [List.flatMap_cons, List.flatMap_nil, List.append_nil]
    apply List.map_congr_left
    intro j hj
    have hj' := List.mem_range.1 hj
    show (r, j) = ((r * c + j) / c, (r * c + j) % c)
    rw [Nat.mul_comm r c, Nat.mul_add_div hc, Nat.mul_add_mod, Nat.div_eq_of_lt hj', Nat.mod_eq_of_lt hj']
    rfl

/-- C30, iteration: for every shape, including empty ones, the iterator from `begin()` to `end()` visits every index pair exactly once, row by
row, and then compares equal to `end()`. -/
theorem C30_iteration (r c : Nat) : iterate r c (r * c + 1) beginIt = some (rowMajor r c) ∧ (rowMajor r c).Nodup ∧
    ∀ i j, (i, j) ∈ rowMajor r c ↔ i < r ∧ j < c := by
  have hmem : ∀ i j, (i, j) ∈ rowMajor r c ↔ i < r ∧ j < c := by
    intro i j
    unfold rowMajor
    simp [List.mem_flatMap]
  have hnd : (rowMajor r c).Nodup := by
    unfold rowMajor
    rw [List.nodup_flatMap]
    refine ⟨fun i _ => List.Nodup.map (fun a b h => by injection h) List.nodup_range, ?_⟩
    refine List.Pairwise.imp_of_mem ?_ (List.nodup_range (n := r))
    intro a b _ _ hab p hp hp'
    simp only [List.mem_map] at hp hp'
    obtain ⟨_, _, rfl⟩ := hp
    obtain ⟨_, _, h⟩ := hp'
    injection h with h1 h2
    exact hab h1.symm
  refine ⟨?_, hnd, hmem⟩
  by_cases hc : 0 < c
  · have := iterate_eq r c hc (r * c + 1) 0 (Nat.zero_le _) (by omega)
    rw [Nat.zero_div, Nat.zero_mod, Nat.sub_zero] at this
    rw [rowMajor_eq r c hc, List.range_eq_range']
    exact this
  · have : c = 0 := by omega
    subst this
    unfold iterate endIt
    simp [rowMajor]

/-- C30: decrementing undoes incrementing. -/
theorem C30_decrement (c i j : Nat) (hj : j < c) : decrement c (increment c (i, j)) = (i, j) := by
  unfold increment decrement
  by_cases h : j < c - 1
  · simp [h]
  · simp [h]; omega

/-! ### Products -/

omit [Ring K] in
theorem LocalContainers.get_eq (y : List K) (i : Nat) (h : i < y.length) : y[i]? = some y[i] := List.getElem?_eq_getElem h

theorem LocalContainers.usmvRow_eq (entry : Nat → Nat → Option K) (a : Nat → Nat → K) (alpha : K) (x : List K) (i : Nat) :
    ∀ (js : List Nat) (y : List K), (∀ j ∈ js, entry i j = some (a i j) ∧ j < x.length) → i < y.length →
      usmvRow entry alpha x i js y = some (y.set i (y.getD i 0 + (js.map fun j => alpha * a i j * x.getD j 0).sum))
  | [], y, _, hi => by
    unfold usmvRow
    simp [get_eq y i hi]
  | j :: js, y, h, hi => by
    unfold usmvRow
    obtain ⟨h1, h2⟩ := h j (by simp)
    have e1 : addAt y i (alpha * a i j * x[j]) = some (y.set i (y[i] + alpha * a i j * x[j])) := by
      unfold addAt; rw [get_eq y i hi]; rfl
    have ih := usmvRow_eq entry a alpha x i js (y.set i (y[i] + alpha * a i j * x[j]))
      (fun k hk => h k (by simp [hk])) (by rw [List.length_set]; exact hi)
    rw [h1, get_eq x j h2]
    show (addAt y i (alpha * a i j * x[j])).bind _ = _
    rw [e1]
    show usmvRow entry alpha x i js _ = _
    rw [ih]
    congr 1
    rw [List.set_set]
    congr 1
    have e2 : y.getD i 0 = y[i] := by simp [List.getD, get_eq y i hi]
    have e3 : x.getD j 0 = x[j] := by simp [List.getD, get_eq x j h2]
    have e4 : (y.set i (y[i] + alpha * a i j * x[j])).getD i 0 = y[i] + alpha * a i j * x[j] := by
      simp [List.getD, hi]
    rw [e2, e4, List.map_cons, List.sum_cons, e3]
    abel

theorem LocalContainers.usmvRows_eq (entry : Nat → Nat → Option K) (a : Nat → Nat → K) (c : Nat) (alpha : K) (x : List K) (hx : c ≤ x.length) :
    ∀ (is : List Nat) (y : List K), is.Nodup → (∀ i ∈ is, (∀ j, j < c → entry i j = some (a i j)) ∧ i < y.length) →
      ∃ y', usmvRows entry c alpha x is y = some y' ∧ y'.length = y.length ∧
        ∀ i, y'.getD i 0 = y.getD i 0 + if i ∈ is then rowProduct a c alpha (fun j => x.getD j 0) i else 0
  | [], y, _, _ => ⟨y, rfl, rfl, fun i => by simp⟩
  | i :: is, y, hn, h => by
    obtain ⟨h1, h2⟩ := h i (by simp)
    have e := usmvRow_eq entry a alpha x i (List.range c) y
      (fun j hj => ⟨h1 j (List.mem_range.1 hj), lt_of_lt_of_le (List.mem_range.1 hj) hx⟩) h2
    have hn' := List.nodup_cons.1 hn
    obtain ⟨y', g1, g2, g3⟩ := usmvRows_eq entry a c alpha x hx is
      (y.set i (y.getD i 0 + ((List.range c).map fun j => alpha * a i j * x.getD j 0).sum)) hn'.2
      (fun k hk => ⟨(h k (by simp [hk])).1, by rw [List.length_set]; exact (h k (by simp [hk])).2⟩)
    refine ⟨y', ?_, by rw [g2, List.length_set], ?_⟩
    · unfold usmvRows
      rw [e]
      exact g1
    · intro k
      rw [g3 k]
      by_cases hk : k = i
      · subst hk
        rw [if_neg hn'.1, if_pos (by simp)]
        simp [List.getD, h2, rowProduct]
      · have : (y.set i (y.getD i 0 + ((List.range c).map fun j => alpha * a i j * x.getD j 0).sum)).getD k 0 = y.getD k 0 := by
          simp [List.getD, List.getElem?_set_ne (Ne.symm hk)]
        rw [this]
        by_cases hm : k ∈ is
        · rw [if_pos hm, if_pos (by simp [hm])]
        · rw [if_neg hm, if_neg (by simp [hm, hk])]

/-- C30, products: for a matrix with entries `a` (by C30_storage every well-formed matrix has such), `usmv` with vectors that are long enough adds `alpha a_ij x_j`, summed over all
columns, to every row of `y`, changes nothing else, and reads nothing outside of the containers. -/
theorem C30_products (m : LocalMatrix K) (a : Nat → Nat → K)
    (ha : ∀ i j, i < m.rows → j < m.cols → m.get? i j = some (a i j)) (alpha : K) (x y : List K)
    (hx : m.cols ≤ x.length) (hy : m.rows ≤ y.length) :
    ∃ y', m.usmv alpha x y = some y' ∧ y'.length = y.length ∧
      (∀ i, i < m.rows → y'.getD i 0 = y.getD i 0 + rowProduct a m.cols alpha (fun j => x.getD j 0) i) ∧
      (∀ i, m.rows ≤ i → y'.getD i 0 = y.getD i 0) := by
  obtain ⟨y', h1, h2, h3⟩ := usmvRows_eq m.get? a m.cols alpha x hx (List.range m.rows) y List.nodup_range
    (fun i hi => ⟨fun j hj => ha i j (List.mem_range.1 hi) hj, lt_of_lt_of_le (List.mem_range.1 hi) hy⟩)
  refine ⟨y', h1, h2, ?_, ?_⟩
  · intro i hi
    rw [h3, if_pos (List.mem_range.2 hi)]
  · intro i hi
    rw [h3, if_neg (by rw [List.mem_range]; omega), add_zero]

theorem LocalContainers.umvRow_one (entry : Nat → Nat → Option K) (x : List K) (i : Nat) :
    ∀ (js : List Nat) (y : List K), umvRow entry x i js y = usmvRow entry 1 x i js y
  | [], _ => rfl
  | j :: js, y => by
    unfold umvRow usmvRow
    simp only [one_mul, umvRow_one entry x i js]

theorem LocalContainers.umvRows_one (entry : Nat → Nat → Option K) (c : Nat) (x : List K) :
    ∀ (is : List Nat) (y : List K), umvRows entry c x is y = usmvRows entry c 1 x is y
  | [], _ => rfl
  | i :: is, y => by
    unfold umvRows usmvRows
    simp only [LocalContainers.umvRow_one, umvRows_one entry c x is]

/-- C30, products without a factor: `umv` adds `a_ij x_j`, summed over all columns, to every row of `y`, and changes nothing else. -/
theorem C30_product (m : LocalMatrix K) (a : Nat → Nat → K)
    (ha : ∀ i j, i < m.rows → j < m.cols → m.get? i j = some (a i j)) (x y : List K)
    (hx : m.cols ≤ x.length) (hy : m.rows ≤ y.length) :
    ∃ y', m.umv x y = some y' ∧ y'.length = y.length ∧
      (∀ i, i < m.rows → y'.getD i 0 = y.getD i 0 + ((List.range m.cols).map fun j => a i j * x.getD j 0).sum) ∧
      (∀ i, m.rows ≤ i → y'.getD i 0 = y.getD i 0) := by
  obtain ⟨y', h1, h2, h3, h4⟩ := C30_products m a ha 1 x y hx hy
  refine ⟨y', ?_, h2, ?_, h4⟩
  · unfold LocalMatrix.umv
    rw [LocalContainers.umvRows_one]
    exact h1
  · intro i hi
    rw [h3 i hi]
    unfold rowProduct
    simp only [one_mul]

example : (⟨[1, 2, 3, 4, 5, 6], 2, 3⟩ : LocalMatrix ℚ).umv [1, 1, 1] [0, 100] = some [9, 112] := by decide +kernel
example : (⟨[1, 2, 3, 4, 5, 6], 2, 3⟩ : LocalMatrix ℚ).usmv 2 [1, 1, 1] [0, 100] = some [18, 124] := by decide +kernel

/-- C30 is false for the diagonal local matrix: its product reads entries that do not exist (assertion failure) as soon as there are two
rows. -/
theorem C30_diagonal_false (a b : K) (as x y : List K) (alpha : K) :
    (DiagonalLocalMatrix.mk (a :: b :: as)).usmv alpha x y = none := by
  unfold DiagonalLocalMatrix.usmv
  show usmvRows _ (as.length + 1 + 1) alpha x (List.range (as.length + 1 + 1)) y = none
  rw [List.range_succ_eq_map]
  unfold usmvRows
  have : ∀ y, usmvRow (DiagonalLocalMatrix.mk (a :: b :: as)).get? alpha x 0 (List.range (as.length + 1 + 1)) y = none := by
    intro y
    rw [List.range_succ_eq_map, List.range_succ_eq_map]
    have e2 : ∀ l y, usmvRow (DiagonalLocalMatrix.mk (a :: b :: as)).get? alpha x 0 (1 :: l) y = none := by
      intro l y
      unfold usmvRow
      have : (DiagonalLocalMatrix.mk (a :: b :: as)).get? 0 1 = none := by
        unfold DiagonalLocalMatrix.get?; rw [if_neg (by decide)]
      rw [this]; rfl
    unfold usmvRow
    cases hx : x[0]? with
    | none => cases (DiagonalLocalMatrix.mk (a :: b :: as)).get? 0 0 <;> rfl
    | some x0 =>
      cases (DiagonalLocalMatrix.mk (a :: b :: as)).get? 0 0 with
      | none => rfl
      | some a0 =>
        show (addAt y 0 (alpha * a0 * x0)).bind _ = none
        cases addAt y 0 (alpha * a0 * x0) with
        | none => rfl
        | some y' =>
          show usmvRow _ alpha x 0 (List.map Nat.succ (0 :: List.map Nat.succ (List.range as.length))) y' = none
          exact e2 _ y'
  show ((usmvRow (DiagonalLocalMatrix.mk (a :: b :: as)).get? alpha x 0 (List.range (as.length + 1 + 1)) y).bind _) = none
  rw [this]
  rfl

/-! ### Views -/

section views

variable {ι : Type} [DecidableEq ι]

theorem LocalContainers.way_eq {vs : List (View K)} {w : List (List K)} (h : vs.map View.weight = w.map List.prod) {k : Nat} {v : View K}
    (hv : vs[k]? = some v) : (w.getD k []).prod = v.weight := by
  have e : (vs.map View.weight)[k]? = (w.map List.prod)[k]? := by rw [h]
  rw [List.getElem?_map, List.getElem?_map, hv] at e
  cases hw : w[k]? with
  | none => rw [hw] at e; cases e
  | some l =>
    rw [hw] at e
    have : w.getD k [] = l := by simp [List.getD, hw]
    rw [this]
    injection e with e
    exact e.symm

omit [Ring K] in
theorem LocalContainers.set_weight {vs : List (View K)} {k : Nat} {v v' : View K} (hv : vs[k]? = some v) (h : v'.weight = v.weight) :
    (vs.set k v').map View.weight = vs.map View.weight := by
  rw [List.map_set, h]
  apply List.ext_getElem?
  intro i
  rw [List.getElem?_set]
  split
  · rename_i e
    subst e
    rw [List.getElem?_map, hv]
    split
    · rfl
    · rename_i hn
      rw [List.length_map] at hn
      rw [List.getElem?_eq_none (by omega)] at hv
      cases hv
  · rfl

omit [Ring K] in
theorem LocalContainers.set_get {vs : List (View K)} {k : Nat} {v : View K} (v' : View K) (hv : vs[k]? = some v) (j : Nat) :
    (vs.set k v')[j]? = if k = j then some v' else vs[j]? := by
  have hk : k < vs.length := by
    by_contra h
    rw [List.getElem?_eq_none (by omega)] at hv
    cases hv
  rw [List.getElem?_set]
  split
  · rename_i e; subst e; simp [hk]
  · rfl

theorem LocalContainers.vrun_eq : ∀ (ops : List (VOp ι K)) (s s' : VState ι K) (w : List (List K)),
    s.views.map View.weight = w.map List.prod → vrun s ops = some s' →
    (∀ e, s'.entries e = s.entries e + contributions e w ops) ∧
    s'.views.map View.weight = (ops.foldl ways w).map List.prod ∧
    (∀ k v, s.views[k]? = some v → (s'.views[k]?).map View.modified = some (touched k v.modified ops))
  | [], s, s', w, hw, h => by
    cases h
    exact ⟨fun e => by simp [contributions], hw, fun k v hv => by rw [hv]; rfl⟩
  | op :: ops, s, s', w, hw, h => by
    have split : ∀ s1, vstep s op = some s1 → vrun s1 ops = some s' := by
      intro s1 h1
      unfold vrun at h
      rw [h1] at h
      exact h
    have exists1 : ∃ s1, vstep s op = some s1 := by
      unfold vrun at h
      cases h1 : vstep s op with
      | none => rw [h1] at h; cases h
      | some s1 => exact ⟨s1, rfl⟩
    obtain ⟨s1, h1⟩ := exists1
    have h2 := split s1 h1
    cases op with
    | view x =>
      have e1 : s1 = { s with views := s.views ++ [⟨x, false⟩] } := by cases h1; rfl
      have hw1 : s1.views.map View.weight = (ways w (VOp.view x : VOp ι K)).map List.prod := by
        rw [e1]; show (s.views ++ _).map _ = (w ++ _).map _
        rw [List.map_append, List.map_append, hw]; simp
      obtain ⟨g1, g2, g3⟩ := vrun_eq ops s1 s' _ hw1 h2
      refine ⟨fun e => ?_, g2, fun k v hv => ?_⟩
      · rw [g1 e, e1]; simp only [contributions, zero_add]
      · refine g3 k v ?_
        rw [e1]
        show (s.views ++ _)[k]? = _
        have hk : k < s.views.length := by
          by_contra hn
          rw [List.getElem?_eq_none (by omega)] at hv
          cases hv
        rw [List.getElem?_append_left hk, hv]
    | nest k x =>
      simp only [vstep] at h1
      cases hv : s.views[k]? with
      | none => rw [hv] at h1; cases h1
      | some v =>
        rw [hv] at h1
        injection h1 with e1
        have hw1 : s1.views.map View.weight = (ways w (VOp.nest k x : VOp ι K)).map List.prod := by
          rw [← e1]
          show (s.views.set k _ ++ _).map _ = (w ++ _).map _
          rw [List.map_append, List.map_append, set_weight (v' := { v with modified := true }) hv rfl, hw]
          simp only [List.map_cons, List.map_nil, List.prod_cons, way_eq hw hv]
        obtain ⟨g1, g2, g3⟩ := vrun_eq ops s1 s' _ hw1 h2
        refine ⟨fun e => ?_, g2, fun j u hu => ?_⟩
        · rw [g1 e, ← e1]; simp only [contributions, zero_add]
        · have hj : j < (s.views.set k { v with modified := true }).length := by
            rw [List.length_set]
            by_contra hn
            rw [List.getElem?_eq_none (by omega)] at hu
            cases hu
          have e2 : s1.views[j]? = if k = j then some { v with modified := true } else s.views[j]? := by
            rw [← e1]
            show (s.views.set k _ ++ _)[j]? = _
            rw [List.getElem?_append_left hj, set_get _ hv]
          by_cases hkj : k = j
          · rw [if_pos hkj] at e2
            rw [g3 j _ e2]
            simp [touched, hkj]
          · rw [if_neg hkj] at e2
            rw [g3 j u (e2.trans hu)]
            simp [touched, hkj]
    | accumulate k e' x =>
      simp only [vstep] at h1
      cases hv : s.views[k]? with
      | none => rw [hv] at h1; cases h1
      | some v =>
        rw [hv] at h1
        injection h1 with e1
        have hw1 : s1.views.map View.weight = (ways w (VOp.accumulate k e' x : VOp ι K)).map List.prod := by
          rw [← e1]; show (s.views.set k _).map _ = w.map _
          rw [set_weight (v' := { v with modified := true }) hv rfl, hw]
        obtain ⟨g1, g2, g3⟩ := vrun_eq ops s1 s' _ hw1 h2
        refine ⟨fun e => ?_, g2, fun j u hu => ?_⟩
        · rw [g1 e, ← e1]
          simp only [contributions, addEntry, way_eq hw hv]
          split
          · rw [add_assoc]
          · rw [zero_add]
        · have e2 : s1.views[j]? = if k = j then some { v with modified := true } else s.views[j]? := by
            rw [← e1]
            exact set_get _ hv j
          by_cases hkj : k = j
          · rw [if_pos hkj] at e2
            rw [g3 j _ e2]
            simp [touched, hkj]
          · rw [if_neg hkj] at e2
            rw [g3 j u (e2.trans hu)]
            simp [touched, hkj]
    | rawAccumulate k e' x =>
      simp only [vstep] at h1
      cases hv : s.views[k]? with
      | none => rw [hv] at h1; cases h1
      | some v =>
        rw [hv] at h1
        injection h1 with e1
        have hw1 : s1.views.map View.weight = (ways w (VOp.rawAccumulate k e' x : VOp ι K)).map List.prod := by
          rw [← e1]; show (s.views.set k _).map _ = w.map _
          rw [set_weight (v' := { v with modified := true }) hv rfl, hw]
        obtain ⟨g1, g2, g3⟩ := vrun_eq ops s1 s' _ hw1 h2
        refine ⟨fun e => ?_, g2, fun j u hu => ?_⟩
        · rw [g1 e, ← e1]
          simp only [contributions, addEntry]
          split
          · rw [add_assoc]
          · rw [zero_add]
        · have e2 : s1.views[j]? = if k = j then some { v with modified := true } else s.views[j]? := by
            rw [← e1]
            exact set_get _ hv j
          by_cases hkj : k = j
          · rw [if_pos hkj] at e2
            rw [g3 j _ e2]
            simp [touched, hkj]
          · rw [if_neg hkj] at e2
            rw [g3 j u (e2.trans hu)]
            simp [touched, hkj]
    | setWeight k x =>
      simp only [vstep] at h1
      cases hv : s.views[k]? with
      | none => rw [hv] at h1; cases h1
      | some v =>
        rw [hv] at h1
        injection h1 with e1
        have hw1 : s1.views.map View.weight = (ways w (VOp.setWeight k x : VOp ι K)).map List.prod := by
          rw [← e1]; show (s.views.set k _).map _ = (w.set k _).map _
          rw [List.map_set, List.map_set, hw]; simp
        obtain ⟨g1, g2, g3⟩ := vrun_eq ops s1 s' _ hw1 h2
        refine ⟨fun e => ?_, g2, fun j u hu => ?_⟩
        · rw [g1 e, ← e1]; simp only [contributions, zero_add]
        · have e2 : s1.views[j]? = if k = j then some { v with weight := x } else s.views[j]? := by
            rw [← e1]
            exact set_get _ hv j
          by_cases hkj : k = j
          · rw [if_pos hkj] at e2
            rw [g3 j _ e2]
            subst hkj
            rw [hv] at hu
            cases hu
            rfl
          · rw [if_neg hkj] at e2
            rw [g3 j u (e2.trans hu)]
            rfl
    | resetModified k =>
      simp only [vstep] at h1
      cases hv : s.views[k]? with
      | none => rw [hv] at h1; cases h1
      | some v =>
        rw [hv] at h1
        injection h1 with e1
        have hw1 : s1.views.map View.weight = (ways w (VOp.resetModified k : VOp ι K)).map List.prod := by
          rw [← e1]; show (s.views.set k _).map _ = w.map _
          rw [set_weight (v' := { v with modified := false }) hv rfl, hw]
        obtain ⟨g1, g2, g3⟩ := vrun_eq ops s1 s' _ hw1 h2
        refine ⟨fun e => ?_, g2, fun j u hu => ?_⟩
        · rw [g1 e, ← e1]; simp only [contributions, zero_add]
        · have e2 : s1.views[j]? = if k = j then some { v with modified := false } else s.views[j]? := by
            rw [← e1]
            exact set_get _ hv j
          by_cases hkj : k = j
          · rw [if_pos hkj] at e2
            rw [g3 j _ e2]
            simp [touched, hkj]
          · rw [if_neg hkj] at e2
            rw [g3 j u (e2.trans hu)]
            simp [touched, hkj]

/-- C31: in any history of creating views of a container and views of views, accumulating through them, changing weights and resetting flags,
every entry ends up with its initial value plus all values accumulated for it, each multiplied by all the weights on the way from its
view to the container (raw ones by none); the weight of each view is the product of the weights on its way. -/
theorem C31_accumulation (f : ι → K) (ops : List (VOp ι K)) (s : VState ι K) (h : vrun ⟨f, []⟩ ops = some s) :
    (∀ e, s.entries e = f e + contributions e [] ops) ∧ s.views.map View.weight = (ops.foldl ways []).map List.prod := by
  obtain ⟨h1, h2, -⟩ := vrun_eq ops ⟨f, []⟩ s [] rfl h
  exact ⟨h1, h2⟩

/-- C31, flags: from any state, a view reports a modification iff it was written to or handed out its container since its last reset (or
reported one before the history, and was not reset). -/
theorem C31_modified (s s' : VState ι K) (ops : List (VOp ι K)) (h : vrun s ops = some s') (k : Nat) (v : View K) (hv : s.views[k]? = some v) :
    ∃ v', s'.views[k]? = some v' ∧ v'.modified = touched k v.modified ops := by
  obtain ⟨w, hw⟩ : ∃ w : List (List K), s.views.map View.weight = w.map List.prod :=
    ⟨s.views.map fun v => [v.weight], by simp [List.map_map, Function.comp_def]⟩
  have := (vrun_eq ops s s' w hw h).2.2 k v hv
  cases hv' : s'.views[k]? with
  | none => rw [hv'] at this; cases this
  | some v' =>
    rw [hv'] at this
    exact ⟨v', rfl, by injection this⟩

/-- C31: a single accumulation through a view changes exactly one entry, by the weighted value. -/
theorem C31_single (s s' : VState ι K) (k : Nat) (e : ι) (x : K) (v : View K) (hv : s.views[k]? = some v)
    (h : vstep s (.accumulate k e x) = some s') :
    s'.entries e = s.entries e + v.weight * x ∧ (∀ e', e' ≠ e → s'.entries e' = s.entries e') := by
  simp only [vstep] at h
  rw [hv] at h
  injection h with h
  subst h
  exact ⟨if_pos rfl, fun e' he => if_neg he⟩

example : (vrun (⟨fun _ => 0, []⟩ : VState Nat ℚ)
    [.view 2, .nest 0 3, .accumulate 1 4 5, .accumulate 0 4 1, .nest 1 (1/2), .accumulate 2 7 1, .rawAccumulate 1 7 1]).map
      (fun s => (s.entries 4, s.entries 7, s.entries 0)) = some (32, 4, 0) := by decide +kernel

end views

end Verif
