import Verif.Spec.LeafOrdering
import Verif.Proofs.Ordering
namespace Verif.LeafOrdering
open PSums Orderings

/-- DOFs that a list of keys attaches to an entity. -/
def kcount (ks : List Key) (t e : Nat) : Nat :=
  ((ks.filter fun k => k.gt == t && k.entity == e).map fun k => k.index + 1).foldr max 0

theorem dofCount_eq (cells : List (List Key)) (t e : Nat) : dofCount cells t e = kcount cells.flatten t e := rfl

theorem foldr_max_append (l : List Nat) (a : Nat) : (l ++ [a]).foldr max 0 = max (l.foldr max 0) a := by
  induction l with
  | nil => simp
  | cons x l ih => simp only [List.cons_append, List.foldr_cons, ih]; omega

theorem kcount_append (ks : List Key) (k : Key) (t e : Nat) :
    kcount (ks ++ [k]) t e = if k.gt = t ∧ k.entity = e then max (kcount ks t e) (k.index + 1) else kcount ks t e := by
  unfold kcount
  rw [List.filter_append, List.map_append]
  by_cases h : k.gt = t ∧ k.entity = e
  · rw [if_pos h]
    have : ([k].filter fun k => k.gt == t && k.entity == e) = [k] := by simp [h]
    rw [this, List.map_singleton, foldr_max_append]
  · rw [if_neg h]
    have : ([k].filter fun k => k.gt == t && k.entity == e) = [] := by
      simp only [List.filter_cons, List.filter_nil]
      rw [if_neg (by simpa using h)]
    rw [this]; simp

theorem kcount_mono (ks ls : List Key) (t e : Nat) :
    kcount ks t e ≤ kcount (ks ++ ls) t e ∧ kcount ls t e ≤ kcount (ks ++ ls) t e := by
  unfold kcount
  rw [List.filter_append, List.map_append]
  generalize (List.map (fun k => k.index + 1) (ks.filter fun k => k.gt == t && k.entity == e)) = a
  generalize (List.map (fun k => k.index + 1) (ls.filter fun k => k.gt == t && k.entity == e)) = b
  induction a with
  | nil => simp
  | cons x a ih => simp only [List.cons_append, List.foldr_cons]; omega

theorem kcount_zero {ks : List Key} {t : Nat} (h : ∀ k ∈ ks, k.gt ≠ t) (e : Nat) : kcount ks t e = 0 := by
  unfold kcount
  rw [List.filter_eq_nil_iff.2]
  · rfl
  · intro k hk; simp [h k hk]

/-- Entities counted by the variable-size path. -/
def cnt (g : Grid) (t : Nat) : Nat := if g.gtUsed t then g.count t else 0

theorem used_of_key {g : Grid} {c : List Key} {k : Key} (hc : c ∈ g.cells) (hk : k ∈ c) : g.gtUsed k.gt = true := by
  simp only [Grid.gtUsed, List.any_eq_true]
  exact ⟨c, hc, k, hk, by simp⟩

theorem offsets_get (g : Grid) (t : Nat) (ht : t ≤ g.types) : g.gtEntityOffsets[t]? = some (psum (cnt g) t) := by
  have := partialSums_range (cnt g) g.types t ht
  unfold getOr at this
  unfold Grid.gtEntityOffsets
  change (partialSums 0 ((List.range g.types).map (cnt g)))[t]? = _
  split at this
  · rename_i x h; rw [h]; simpa using this
  · simp at this

theorem offsets_last (g : Grid) : g.gtEntityOffsets.getLast?.getD 0 = psum (cnt g) g.types := by
  unfold Grid.gtEntityOffsets
  rw [partialSums_last, Nat.zero_add]; rfl

/-- The sizes recorded for the keys processed so far. -/
def SizesInv (g : Grid) (ks : List Key) (sizes : List Nat) : Prop :=
  sizes.length = psum (cnt g) g.types ∧
  ∀ t e, t < g.types → e < cnt g t → sizes[psum (cnt g) t + e]? = some (kcount ks t e)

theorem keyStep_ok {g : Grid} {ks : List Key} {s : List Nat × List Nat} {k : Key}
    (h : SizesInv g ks s.1) (hl : s.2.length = g.types) (hk : k.gt < g.types) (he : k.entity < cnt g k.gt) :
    ∃ s', keyStep g.gtEntityOffsets s k = some s' ∧ SizesInv g (ks ++ [k]) s'.1 ∧
      s'.2 = s.2.set k.gt (kcount (ks ++ [k]) k.gt k.entity) := by
  have hold := h.2 k.gt k.entity hk he
  have hkc : kcount (ks ++ [k]) k.gt k.entity = max (kcount ks k.gt k.entity) (k.index + 1) := by
    rw [kcount_append]; simp
  refine ⟨_, by
    rw [keyStep, offsets_get g k.gt (by omega), Option.bind_some, hold, Option.bind_some, if_pos (by omega)], ?_, ?_⟩
  · refine ⟨by simpa using h.1, ?_⟩
    intro t e ht he'
    simp only
    rw [List.getElem?_set]
    have hlt : psum (cnt g) k.gt + k.entity < s.1.length := by rw [h.1]; exact psum_add_lt _ hk he
    by_cases heq : psum (cnt g) k.gt + k.entity = psum (cnt g) t + e
    · obtain ⟨h1, h2⟩ := psum_inj (cnt g) he he' heq
      rw [if_pos heq, if_pos hlt]
      subst h1; subst h2; rw [hkc]
    · rw [if_neg heq, h.2 t e ht he', kcount_append, if_neg]
      rintro ⟨rfl, rfl⟩; exact heq rfl
  · simp only [hkc]

/-- The sizes recorded for the geometry types in the current cell. -/
def LocalInv (g : Grid) (all done : List Key) (loc : List Nat) : Prop :=
  loc.length = g.types ∧ ∀ t, t < g.types → ∃ v, loc[t]? = some v ∧
    ((v = 0 ∧ ∀ k ∈ done, k.gt ≠ t) ∨ ∃ k ∈ done, k.gt = t ∧ v = kcount all t k.entity)

theorem cell_fold {g : Grid} (c : List Key) (hv : ∀ k ∈ c, k.gt < g.types ∧ k.entity < cnt g k.gt)
    (ks done : List Key) (s : List Nat × List Nat) (h : SizesInv g ks s.1) (hl : LocalInv g ks done s.2) :
    ∃ s', c.foldlM (keyStep g.gtEntityOffsets) s = some s' ∧ SizesInv g (ks ++ c) s'.1 ∧
      LocalInv g (ks ++ c) (done ++ c) s'.2 := by
  induction c generalizing ks done s with
  | nil => exact ⟨s, rfl, by simpa using h, by simpa using hl⟩
  | cons k c ih =>
    obtain ⟨hk, he⟩ := hv k (by simp)
    obtain ⟨s1, h1, h2, h3⟩ := keyStep_ok h hl.1 hk he
    have hl' : LocalInv g (ks ++ [k]) (done ++ [k]) s1.2 := by
      refine ⟨by rw [h3]; simpa using hl.1, ?_⟩
      intro t ht
      rw [h3, List.getElem?_set]
      by_cases hkt : k.gt = t
      · rw [if_pos hkt, if_pos (by rw [hl.1]; omega)]
        exact ⟨_, rfl, Or.inr ⟨k, by simp, hkt, by rw [hkt]⟩⟩
      · rw [if_neg hkt]
        obtain ⟨v, hv1, hv2⟩ := hl.2 t ht
        refine ⟨v, hv1, ?_⟩
        rcases hv2 with ⟨rfl, hno⟩ | ⟨k', hk', hkt', hve⟩
        · left
          refine ⟨rfl, ?_⟩
          intro q hq
          rcases List.mem_append.1 hq with hq | hq
          · exact hno q hq
          · rw [List.mem_singleton.1 hq]; exact hkt
        · right
          refine ⟨k', by simp [hk'], hkt', ?_⟩
          rw [kcount_append, if_neg (fun hh => hkt hh.1)]
          exact hve
    obtain ⟨s2, g1, g2, g3⟩ := ih (fun k' hk' => hv k' (by simp [hk'])) (ks ++ [k]) (done ++ [k]) s1 h2 hl'
    refine ⟨s2, ?_, by simpa using g2, by simpa using g3⟩
    simp only [List.foldlM_cons, h1]
    exact g1

theorem compare_true {gs : List (Option Nat)} {ls : List Nat} (hlen : gs.length = ls.length)
    (h : (compareSizes gs ls).2 = true) (t : Nat) (v : Nat) (hv : ls[t]? = some v) :
    (compareSizes gs ls).1[t]? = some (some v) ∧ ∀ s, gs[t]? = some (some s) → s = v := by
  induction gs generalizing ls t with
  | nil => cases ls with
    | nil => simp at hv
    | cons => simp at hlen
  | cons o gs ih =>
    cases ls with
    | nil => simp at hlen
    | cons l ls =>
      simp at hlen
      cases o with
      | none =>
        simp only [compareSizes] at h ⊢
        cases t with
        | zero => simp at hv; simp [hv]
        | succ t => simpa using ih hlen h t (by simpa using hv)
      | some s =>
        simp only [compareSizes] at h ⊢
        by_cases hs : s = l
        · subst hs
          simp only [ne_eq, not_true_eq_false, if_false] at h ⊢
          cases t with
          | zero => simp at hv; simp [hv]
          | succ t => simpa using ih hlen h t (by simpa using hv)
        · simp [hs] at h

theorem compare_length (gs : List (Option Nat)) (ls : List Nat) : (compareSizes gs ls).1.length = gs.length := by
  induction gs generalizing ls with
  | nil => simp [compareSizes]
  | cons o gs ih =>
    cases ls with
    | nil => cases o <;> simp [compareSizes]
    | cons l ls =>
      cases o with
      | none => simp [compareSizes, ih]
      | some s => simp only [compareSizes]; split <;> simp [ih]

/-- Value recorded for type `t` by a cell whose keys are `c`, with `all` keys processed afterwards. -/
def Recorded (all c : List Key) (t v : Nat) : Prop :=
  (v = 0 ∧ ∀ k ∈ c, k.gt ≠ t) ∨ ∃ k ∈ c, k.gt = t ∧ v = kcount all t k.entity

structure ScanInv (g : Grid) (n : Nat) (s : Scan) : Prop where
  sizes : SizesInv g (g.cells.take n).flatten s.sizes
  len : s.gtSizes.length = g.types
  gt : s.possible = true → ∀ t, t < g.types →
    (n = 0 ∧ s.gtSizes[t]? = some none) ∨
    ∃ v, s.gtSizes[t]? = some (some v) ∧
      ∀ j c, j < n → g.cells[j]? = some c → Recorded (g.cells.take (j + 1)).flatten c t v

theorem scan_ok (g : Grid) (hv : g.Valid) : ∃ s, g.scan = some s ∧ ScanInv g g.cells.length s := by
  have key : ∀ m n s, n + m = g.cells.length → ScanInv g n s →
      ∃ s', (g.cells.drop n).foldlM (cellStep g.types g.gtEntityOffsets) s = some s' ∧
        ScanInv g g.cells.length s' := by
    intro m
    induction m with
    | zero =>
      intro n s hn h
      have : n = g.cells.length := by omega
      subst this
      exact ⟨s, by simp, h⟩
    | succ m ih =>
      intro n s hn h
      have hlt : n < g.cells.length := by omega
      have hd : g.cells.drop n = g.cells[n] :: g.cells.drop (n + 1) := List.drop_eq_getElem_cons hlt
      have htk : g.cells.take (n + 1) = g.cells.take n ++ [g.cells[n]] := by simp
      have hcv : ∀ k ∈ g.cells[n], k.gt < g.types ∧ k.entity < cnt g k.gt := by
        intro k hk
        have hc := List.getElem_mem hlt
        obtain ⟨h1, h2⟩ := hv _ hc k hk
        refine ⟨h1, ?_⟩
        unfold cnt
        rw [if_pos (used_of_key hc hk)]; exact h2
      have hl0 : LocalInv g (g.cells.take n).flatten [] (List.replicate g.types 0) := by
        refine ⟨by simp, fun t ht => ⟨0, by simp [ht], Or.inl ⟨rfl, by simp⟩⟩⟩
      obtain ⟨r, hr1, hr2, hr3⟩ := cell_fold g.cells[n] hcv (g.cells.take n).flatten []
        (s.sizes, List.replicate g.types 0) h.sizes hl0
      have hfl : (g.cells.take (n + 1)).flatten = (g.cells.take n).flatten ++ g.cells[n] := by
        rw [htk, List.flatten_append]; simp only [List.flatten_cons, List.flatten_nil, List.append_nil]
      rw [← hfl] at hr2 hr3
      simp only [List.nil_append] at hr3
      have hstep : ∃ s1, cellStep g.types g.gtEntityOffsets s g.cells[n] = some s1 ∧ ScanInv g (n + 1) s1 := by
        refine ⟨_, by rw [cellStep, hr1, Option.map_some], ?_⟩
        split
        · rename_i hp
          refine ⟨hr2, by rw [compare_length]; exact h.len, ?_⟩
          intro hp' t ht
          right
          obtain ⟨v, hv1, hv2⟩ := hr3.2 t ht
          obtain ⟨c1, c2⟩ := compare_true (by rw [h.len, hr3.1]) hp' t v hv1
          refine ⟨v, c1, ?_⟩
          intro j c hj hc
          by_cases hjn : j = n
          · subst hjn
            rw [List.getElem?_eq_getElem hlt] at hc
            simp only [Option.some.injEq] at hc; subst hc
            exact hv2
          · rcases h.gt hp t ht with ⟨h0, _⟩ | ⟨w, hw1, hw2⟩
            · omega
            · have := c2 w hw1; subst this
              exact hw2 j c (by omega) hc
        · rename_i hp
          exact ⟨hr2, h.len, fun hp' => absurd hp' hp⟩
      obtain ⟨s1, hs1, hs2⟩ := hstep
      obtain ⟨s', h1, h2⟩ := ih (n + 1) s1 (by omega) hs2
      refine ⟨s', ?_, h2⟩
      rw [hd, List.foldlM_cons, hs1]
      exact h1
  have h0 : ScanInv g 0 ⟨List.replicate (g.gtEntityOffsets.getLast?.getD 0) 0, List.replicate g.types none, true⟩ := by
    refine ⟨⟨by rw [offsets_last]; simp, ?_⟩, by simp, ?_⟩
    · intro t e ht he
      have : psum (cnt g) t + e < psum (cnt g) g.types := psum_add_lt _ ht he
      simp [offsets_last, this, kcount]
    · intro _ t ht; left; simp [ht]
  exact key g.cells.length 0 _ (by omega) h0

theorem mem_take_flatten {cells : List (List Key)} {j : Nat} {c : List Key} (hc : cells[j]? = some c) (t e : Nat) :
    kcount c t e ≤ kcount (cells.take (j + 1)).flatten t e ∧
    kcount (cells.take (j + 1)).flatten t e ≤ kcount cells.flatten t e := by
  constructor
  · have hlt : j < cells.length := (List.getElem?_eq_some_iff.1 hc).1
    have he : cells[j] = c := (List.getElem?_eq_some_iff.1 hc).2
    have : cells.take (j + 1) = cells.take j ++ [c] := by rw [← he]; simp
    rw [this]
    simp only [List.flatten_append, List.flatten_cons, List.flatten_nil, List.append_nil]
    exact (kcount_mono _ _ t e).2
  · conv_rhs => rw [← List.take_append_drop (j + 1) cells, List.flatten_append]
    exact (kcount_mono _ _ t e).1

theorem detected_sizes {g : Grid} {subs : Subs} (hu : Uniform g subs) {s : Scan}
    (hs : ScanInv g g.cells.length s) (hp : s.possible = true) (t e : Nat) (ht : t < g.types) (he : e < g.count t) :
    s.gtSizes[t]? = some (some (dofCount g.cells t e)) := by
  obtain ⟨su, hsu, hm⟩ := hu.cover t e ht he
  obtain ⟨j, hj, hje⟩ := List.getElem_of_mem hsu
  have hjc : j < g.cells.length := by rw [← hu.len]; exact hj
  rcases hs.gt hp t ht with ⟨h0, _⟩ | ⟨v, hv1, hv2⟩
  · omega
  · have hc : g.cells[j]? = some g.cells[j] := List.getElem?_eq_getElem hjc
    have hsj : subs[j]? = some su := by rw [List.getElem?_eq_getElem hj, hje]
    rw [hv1]
    have hcf := hu.conforming j _ su hc hsj
    rcases hv2 j _ hjc hc with ⟨rfl, hno⟩ | ⟨k, hk, hkt, hve⟩
    · have := hcf t e hm
      rw [← this]
      simp [dofCount_eq, kcount_zero hno]
    · have hks := hu.keys j _ su hc hsj k hk
      rw [hkt] at hks
      have h1 := mem_take_flatten hc t k.entity
      have h2 := hcf t k.entity hks
      simp only [dofCount_eq, List.flatten_cons, List.flatten_nil, List.append_nil] at h2
      have hveq : v = dofCount g.cells t k.entity := by
        rw [hve, dofCount_eq]; omega
      rw [hveq, hu.uniform su hsu t k.entity e hks hm]

/-! ### Numberings -/

theorem ps_get (f : Nat → Nat) (n i : Nat) (hi : i ≤ n) :
    (partialSums 0 ((List.range n).map f))[i]? = some (psum f i) := by
  have := partialSums_range f n i hi
  unfold getOr at this
  split at this
  · rename_i x h; rw [h]; simpa using this
  · simp at this

theorem mkFixed_map (g : Grid) (used : List Bool) (sizes eo : List Nat) (hl : sizes.length = g.types)
    (n : Nat → Nat → Nat) (hn : ∀ t e, t < g.types → e < g.count t → n t e = sizes.getD t 0) :
    ContiguousNumbering g n (mkFixed g false used sizes eo).size (mkFixed g false used sizes eo).mapIndex := by
  let f : Nat → Nat := fun t => sizes.getD t 0 * g.count t
  have hsize : (mkFixed g false used sizes eo).size = psum f g.types := rfl
  have hlt : ∀ t e i, IsDof g n t e i → e * sizes.getD t 0 + i < f t := by
    rintro t e i ⟨ht, he, hi⟩
    rw [hn t e ht he] at hi
    calc e * sizes.getD t 0 + i < e * sizes.getD t 0 + sizes.getD t 0 := by omega
      _ = sizes.getD t 0 * (e + 1) := by rw [Nat.mul_add, Nat.mul_one, Nat.mul_comm]
      _ ≤ f t := Nat.mul_le_mul_left _ he
  refine ⟨fun t e => psum f t + e * sizes.getD t 0, ?_, ?_, ?_⟩
  · intro t e i hd
    have hd' := hd
    obtain ⟨ht, he, hi⟩ := hd'
    constructor
    · have h1 : (mkFixed g false used sizes eo).gtDofOffsets[t]? = some (psum f t) := by
        simpa [mkFixed, f] using ps_get f g.types t (by omega)
      have h2 : (mkFixed g false used sizes eo).gtDofSizes[t]? = some (sizes.getD t 0) := by
        simp [mkFixed, List.getD, List.getElem?_eq_getElem (show t < sizes.length by omega)]
      have h3 : (mkFixed g false used sizes eo).fixed = true := rfl
      have h4 : (mkFixed g false used sizes eo).blocked = false := rfl
      rw [Leaf.mapIndex, if_pos h3, h1, Option.bind_some, h4, h2]
      simp; omega
    · rw [hsize]
      have := psum_add_lt f ht (hlt t e i hd)
      simp only; omega
  · intro t e i t' e' i' hd hd' h
    simp only at h
    obtain ⟨h1, h2⟩ := psum_inj f (hlt t e i hd) (hlt t' e' i' hd') (by omega)
    subst h1
    obtain ⟨ht, he, hi⟩ := hd
    obtain ⟨ht', he', hi'⟩ := hd'
    rw [hn t e ht he] at hi
    rw [hn t e' ht' he'] at hi'
    obtain ⟨h3, h4⟩ := split_block hi hi' h2
    exact ⟨rfl, h3, h4⟩
  · intro k hk
    rw [hsize] at hk
    obtain ⟨t, r, ht, hr, rfl⟩ := psum_exists f g.types k hk
    have hpos : 0 < sizes.getD t 0 := by
      by_contra h0
      have : sizes.getD t 0 = 0 := by omega
      simp only [f, this, Nat.zero_mul] at hr
      omega
    have he : r / sizes.getD t 0 < g.count t := Nat.div_lt_of_lt_mul hr
    refine ⟨t, r / sizes.getD t 0, r % sizes.getD t 0, ⟨ht, he, ?_⟩, ?_⟩
    · rw [hn _ _ ht he]; exact Nat.mod_lt _ hpos
    · have := Nat.div_add_mod r (sizes.getD t 0)
      rw [Nat.mul_comm] at this
      simp only; omega

theorem mkVar_map (g : Grid) (n : Nat → Nat → Nat) (l : Leaf) (sizes : List Nat)
    (hlen : sizes.length = psum (cnt g) g.types)
    (hs : ∀ t e, t < g.types → e < cnt g t → sizes[psum (cnt g) t + e]? = some (n t e))
    (h0 : ∀ t e, g.gtUsed t = false → n t e = 0)
    (h1 : l.fixed = false) (h2 : l.blocked = false) (h3 : l.gtEntityOffsets = g.gtEntityOffsets)
    (h4 : l.entityDofOffsets = partialSums 0 sizes) (h5 : l.size = (partialSums 0 sizes).getLast?.getD 0) :
    ContiguousNumbering g n l.size l.mapIndex := by
  let f : Nat → Nat := fun j => sizes.getD j 0
  have hsize : l.size = psum f (psum (cnt g) g.types) := by
    rw [h5, partialSums_last, Nat.zero_add, sum_eq_psum, hlen]
  have hsz : sizes = (List.range (psum (cnt g) g.types)).map f := by
    rw [← hlen]; exact sizes_eq sizes
  have hf : ∀ t e, t < g.types → e < cnt g t → f (psum (cnt g) t + e) = n t e := by
    intro t e ht he; simp only [f, List.getD, hs t e ht he, Option.getD_some]
  have hdof : ∀ t e i, IsDof g n t e i → e < cnt g t := by
    rintro t e i ⟨ht, he, hi⟩
    unfold cnt
    cases hu : g.gtUsed t with
    | true => simpa using he
    | false => rw [h0 t e hu] at hi; omega
  refine ⟨fun t e => psum f (psum (cnt g) t + e), ?_, ?_, ?_⟩
  · intro t e i hd
    have he := hdof t e i hd
    obtain ⟨ht, _, hi⟩ := hd
    have hlt : psum (cnt g) t + e < psum (cnt g) g.types := psum_add_lt _ ht he
    constructor
    · rw [Leaf.mapIndex, if_neg (by simp [h1]), h3, offsets_get g t (by omega), Option.bind_some, h2, h4]
      have : (partialSums 0 sizes)[psum (cnt g) t + e]? = some (psum f (psum (cnt g) t + e)) := by
        conv_lhs => rw [hsz]
        exact ps_get f _ _ (by omega)
      simp [this]; omega
    · rw [hsize]
      exact psum_add_lt f hlt (by rw [hf t e ht he]; exact hi)
  · intro t e i t' e' i' hd hd' h
    have he := hdof t e i hd
    have he' := hdof t' e' i' hd'
    obtain ⟨ht, _, hi⟩ := hd
    obtain ⟨ht', _, hi'⟩ := hd'
    obtain ⟨q1, q2⟩ := psum_inj f (by rw [hf t e ht he]; exact hi) (by rw [hf t' e' ht' he']; exact hi') h
    obtain ⟨q3, q4⟩ := psum_inj (cnt g) he he' q1
    exact ⟨q3, q4, q2⟩
  · intro k hk
    rw [hsize] at hk
    obtain ⟨j, i, hj, hi, rfl⟩ := psum_exists f _ k hk
    obtain ⟨t, e, ht, he, rfl⟩ := psum_exists (cnt g) _ j hj
    refine ⟨t, e, i, ⟨ht, ?_, by rw [← hf t e ht he]; exact hi⟩, rfl⟩
    unfold cnt at he
    split at he
    · exact he
    · omega

theorem dofCount_unused {g : Grid} {t : Nat} (h : g.gtUsed t = false) (e : Nat) : dofCount g.cells t e = 0 := by
  rw [dofCount_eq]
  apply kcount_zero
  intro k hk hkt
  obtain ⟨c, hc, hkc⟩ := List.mem_flatten.1 hk
  have := used_of_key hc hkc
  rw [hkt, h] at this; simp at this

theorem getD_map_getD (l : List (Option Nat)) (t : Nat) : (l.map fun o => o.getD 0).getD t 0 = (l[t]?.getD none).getD 0 := by
  simp only [List.getD, List.getElem?_map]
  cases l[t]? <;> simp

end Verif.LeafOrdering
