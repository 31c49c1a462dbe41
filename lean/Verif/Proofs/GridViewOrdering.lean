import Verif.Spec.GridViewOrdering
import Verif.Proofs.LeafOrdering
import Verif.Proofs.Ordering
namespace Verif.GridViewOrdering
open PSums LeafOrdering
open Orderings (partialSums partialSums_get partialSums_length partialSums_last take_map_range)

/-! ### Lists -/

theorem mapM_some {β : Type} (l : List Nat) (f : Nat → Option β) (g : Nat → β)
    (h : ∀ i ∈ l, f i = some (g i)) : l.mapM f = some (l.map g) := by
  induction l with
  | nil => rfl
  | cons a as ih =>
    rw [List.mapM_cons, h a (by simp), ih (fun r hr => h r (by simp [hr]))]
    rfl

theorem ps_get' (f : Nat → Nat) (n i : Nat) (hi : i ≤ n) :
    (partialSums 0 ((List.range n).map f))[i]? = some (psum f i) := LeafOrdering.ps_get f n i hi

theorem ps_len (f : Nat → Nat) (n : Nat) : (partialSums 0 ((List.range n).map f)).length = n + 1 := by
  rw [partialSums_length]; simp

theorem ps_last (f : Nat → Nat) (n : Nat) : (partialSums 0 ((List.range n).map f)).getLast?.getD 0 = psum f n := by
  rw [partialSums_last, Nat.zero_add]; rfl

theorem runningSums_length (l : List Nat) : (runningSums l).length = l.length := by
  simp [runningSums, partialSums_length]

theorem runningSums_get (f : Nat → Nat) (n c : Nat) (hc : c < n) :
    (runningSums ((List.range n).map f))[c]? = some (psum f (c + 1)) := by
  rw [runningSums, List.getElem?_tail, ps_get' f n (c + 1) (by omega)]

theorem flatten_get {L : List (List Nat)} {n : Nat} (h : ∀ l ∈ L, l.length = n) (i c : Nat) (hc : c < n) :
    L.flatten[i * n + c]? = L[i]?.bind fun l => l[c]? := by
  induction L generalizing i with
  | nil => simp
  | cons l L ih =>
    have hl : l.length = n := h l (by simp)
    rw [List.flatten_cons]
    cases i with
    | zero =>
      rw [Nat.zero_mul, Nat.zero_add, List.getElem?_append_left (by omega)]
      simp
    | succ i =>
      rw [List.getElem?_append_right (by rw [hl, Nat.succ_mul]; omega), hl,
        show (i + 1) * n + c - n = i * n + c by rw [Nat.succ_mul]; omega, ih (fun l hl => h l (by simp [hl]))]
      simp

theorem flatMap_length {β : Type} (cnt : Nat → Nat) (F : Nat → Nat → β) (T : Nat) :
    ((List.range T).flatMap fun t => (List.range (cnt t)).map (F t)).length = psum cnt T := by
  induction T with
  | zero => rfl
  | succ T ih => rw [List.range_succ, List.flatMap_append, List.length_append, ih, psum_succ]; simp

theorem flatMap_get {β : Type} (cnt : Nat → Nat) (F : Nat → Nat → β) (T t e : Nat) (ht : t < T) (he : e < cnt t) :
    ((List.range T).flatMap fun t => (List.range (cnt t)).map (F t))[psum cnt t + e]? = some (F t e) := by
  induction T with
  | zero => omega
  | succ T ih =>
    rw [List.range_succ, List.flatMap_append]
    by_cases h : t < T
    · rw [List.getElem?_append_left (by rw [flatMap_length]; exact psum_add_lt cnt h he)]
      exact ih h
    · have : t = T := by omega
      subst this
      rw [List.getElem?_append_right (by rw [flatMap_length]; omega), flatMap_length,
        show psum cnt t + e - psum cnt t = e by omega]
      simp [he]

theorem filter_flatten {β : Type} (l : List Nat) (p : Nat → Bool) (h : Nat → List β)
    (h0 : ∀ t, p t = false → h t = []) : ((l.filter p).map h).flatten = l.flatMap h := by
  induction l with
  | nil => rfl
  | cons a as ih =>
    cases hp : p a with
    | true => simp [hp, ih]
    | false => simp [hp, ih, h0 a hp]

theorem upperBound_eq {l : List Nat} {v k : Nat} (hk : k < l.length) (h1 : ∀ i x, i < k → l[i]? = some x → x ≤ v)
    (h2 : ∀ i x, k ≤ i → l[i]? = some x → v < x) : upperBound l v = some k := by
  have hsplit : l = l.take k ++ l.drop k := (List.take_append_drop k l).symm
  have ht : ∀ x ∈ l.take k, decide (x ≤ v) = true := by
    intro x hx
    obtain ⟨i, hi⟩ := List.mem_iff_getElem?.1 hx
    rw [List.getElem?_take] at hi
    split at hi
    · rename_i hik; simpa using h1 i x hik hi
    · simp at hi
  have hd : ∀ x ∈ l.drop k, v < x := by
    intro x hx
    obtain ⟨i, hi⟩ := List.mem_iff_getElem?.1 hx
    rw [List.getElem?_drop] at hi
    exact h2 (k + i) x (by omega) hi
  have hlen : (l.takeWhile fun x => decide (x ≤ v)).length = k := by
    conv_lhs => rw [hsplit]
    rw [List.takeWhile_append_of_pos ht]
    have : (l.drop k).takeWhile (fun x => decide (x ≤ v)) = [] := by
      cases hc : l.drop k with
      | nil => rfl
      | cons a as =>
        have : v < a := hd a (by rw [hc]; simp)
        simp [show ¬ a ≤ v by omega]
    rw [this]; simp; omega
  unfold upperBound
  rw [hlen, if_pos]
  rw [List.all_eq_true]
  intro x hx
  simpa using hd x hx

/-- The search in a list of partial sums. -/
theorem upperBound_psum {f : Nat → Nat} {n v k : Nat} (hk : k < n) (h1 : psum f k ≤ v) (h2 : v < psum f (k + 1)) :
    upperBound (partialSums 0 ((List.range n).map f)) v = some (k + 1) := by
  apply upperBound_eq
  · rw [ps_len]; omega
  · intro i x hi hx
    rw [ps_get' f n i (by omega)] at hx
    injection hx with hx
    have := psum_mono f (show i ≤ k by omega)
    omega
  · intro i x hi hx
    have hin : i ≤ n := by
      have := (List.getElem?_eq_some_iff.1 hx).1
      rw [ps_len] at this; omega
    rw [ps_get' f n i hin] at hx
    injection hx with hx
    have := psum_mono f hi
    omega

/-! ### Local orderings -/

/-- `cnt`: number of entities that have per-entity offsets. -/
def cntOf (m : Mesh) (used : Nat → Bool) (t : Nat) : Nat := if used t then m.count t else 0

/-- What an updated local ordering knows about a space. -/
structure LocOk (m : Mesh) (s : Space) (l : Local) : Prop where
  arr : ∃ a, l.arrays = some a ∧ a.gtUsed.length = m.types
  unused : ∀ t e, t < m.types → e < m.count t → l.contains t = false → s.total t e = 0
  size : ∀ t e, t < m.types → e < m.count t → l.size t e = some (s.total t e)
  fixed : l.fixed = true → ∃ f : Nat → Nat, ∀ t e, t < m.types → l.size t e = some (f t)

theorem leafDofs_unused {cells : List (List Key)} {t : Nat} {m : Mesh}
    (h : (⟨m.types, m.count, cells⟩ : Grid).gtUsed t = false) (e : Nat) : dofCount cells t e = 0 :=
  dofCount_unused (g := ⟨m.types, m.count, cells⟩) h e

theorem leaf_ok {m : Mesh} {fem : Option (Nat → Nat)} {cells : List (List Key)}
    (hv : (Space.leaf fem cells).Valid m) (hl : (Space.leaf fem cells).LeavesOk m) :
    LocOk m (.leaf fem cells) ((Space.leaf fem cells).localOrdering m) := by
  cases fem with
  | some s =>
    have hget : ∀ t, t < m.types → ((List.range m.types).map fun t => if 0 < m.count t then s t else 0)[t]? =
        some (if 0 < m.count t then s t else 0) := by
      intro t ht; rw [List.getElem?_map, List.getElem?_range ht]; rfl
    refine ⟨⟨_, rfl, by simp⟩, ?_, ?_, ?_⟩
    · intro t e ht he hc
      have : ((List.range m.types).map fun t => if 0 < m.count t then s t else 0)[t]?.map (fun x => decide (0 < x)) =
          some false := by
        rw [hget t ht]
        have hc' : ((((List.range m.types).map fun t => if 0 < m.count t then s t else 0).map fun x => decide (0 < x))[t]?).getD
            false = false := hc
        rw [List.getElem?_map, hget t ht] at hc'
        simpa using hc'
      rw [hget t ht, if_pos (by omega)] at this
      simp at this
      exact this
    · intro t e ht he
      have := hget t ht
      rw [if_pos (by omega)] at this
      exact this
    · intro _
      exact ⟨_, fun t e ht => hget t ht⟩
  | none =>
    have hv : (⟨m.types, m.count, cells⟩ : Grid).Valid := hv
    obtain ⟨sc, h1, h2⟩ := scan_ok _ hv
    have hfull : List.take (⟨m.types, m.count, cells⟩ : Grid).cells.length (⟨m.types, m.count, cells⟩ : Grid).cells = cells :=
      List.take_length
    have hsz := h2.sizes
    rw [hfull] at hsz
    have hloc : (Space.leaf none cells).localOrdering m = .leaf (some
        { fixed := sc.possible, gtUsed := (List.range m.types).map (⟨m.types, m.count, cells⟩ : Grid).gtUsed,
          gtEntityOffsets := (⟨m.types, m.count, cells⟩ : Grid).gtEntityOffsets,
          gtDofOffsets := sc.gtSizes.map fun o => o.getD 0,
          entityDofOffsets := if sc.possible then [] else sc.sizes }) := by
      simp only [Space.localOrdering, leafArrays, h1, Option.map_some]
    have hl : (∃ subs, Uniform ⟨m.types, m.count, cells⟩ subs) ∨
      ((Space.leaf none cells).localOrdering m).fixed = false := hl
    rw [hloc] at hl ⊢
    have hcont : ∀ t, t < m.types → (Local.leaf (some
        { fixed := sc.possible, gtUsed := (List.range m.types).map (⟨m.types, m.count, cells⟩ : Grid).gtUsed,
          gtEntityOffsets := (⟨m.types, m.count, cells⟩ : Grid).gtEntityOffsets,
          gtDofOffsets := sc.gtSizes.map fun o => o.getD 0,
          entityDofOffsets := if sc.possible then [] else sc.sizes })).contains t =
          (⟨m.types, m.count, cells⟩ : Grid).gtUsed t := by
      intro t ht
      simp [Local.contains, Local.arrays, ht]
    have hgl : sc.gtSizes.length = m.types := h2.len
    refine ⟨⟨_, rfl, by simp⟩, ?_, ?_, ?_⟩
    · intro t e ht he hc
      rw [hcont t ht] at hc
      exact leafDofs_unused hc e
    · intro t e ht he
      cases hp : sc.possible with
      | true =>
        rcases hl with ⟨subs, hu⟩ | hl
        · have hd := detected_sizes hu h2 hp t e ht he
          have hlt : t < sc.gtSizes.length := by omega
          rw [List.getElem?_eq_getElem hlt] at hd
          simp only at hd
          simp only [Local.size, Local.arrays, Option.bind_some, if_true, Local.childCount, Nat.lt_irrefl, if_false]
          rw [List.getElem?_map, List.getElem?_eq_getElem hlt, hd]; rfl
        · simp [Local.fixed, Local.arrays, hp] at hl
      | false =>
        simp only [Local.size, Local.arrays, Option.bind_some, Bool.false_eq_true, if_false, Local.childCount, Nat.lt_irrefl]
        rw [List.getElem?_map, List.getElem?_range ht]
        simp only [Option.map_some, Option.bind_some]
        cases hu : (⟨m.types, m.count, cells⟩ : Grid).gtUsed t with
        | false =>
          simp only [Bool.false_eq_true, if_false]
          rw [show (Space.leaf none cells).total t e = 0 from leafDofs_unused hu e]
        | true =>
          simp only [if_true]
          rw [offsets_get _ t (by exact Nat.le_of_lt ht)]
          simp only [Option.bind_some]
          have hcnt : e < cnt ⟨m.types, m.count, cells⟩ t := by simp [cnt, hu, he]
          exact hsz.2 t e ht hcnt
    · intro hf
      have hp : sc.possible = true := by simpa [Local.fixed, Local.arrays] using hf
      refine ⟨fun t => (sc.gtSizes.map fun o => o.getD 0).getD t 0, ?_⟩
      intro t e ht
      simp only [Local.size, Local.arrays, Option.bind_some, hp, if_true, Local.childCount, Nat.lt_irrefl, if_false]
      have hlt : t < sc.gtSizes.length := by omega
      simp [List.getD, List.getElem?_eq_getElem hlt]

/-- What the arrays of an inner node contain. -/
structure NodeOk (m : Mesh) (n : Nat) (child : Nat → Space) (lchild : Nat → Local) (a : Arrays) : Prop where
  used : a.gtUsed = (List.range m.types).map fun t => (List.range n).any fun c => (lchild c).contains t
  fx : a.fixed = true → ∃ F : Nat → Nat → Nat,
    (∀ t c, t < m.types → c < n → a.gtDofOffsets[t * n + c]? = some (psum (F t) (c + 1))) ∧
    (∀ t e c, t < m.types → e < m.count t → c < n → F t c = (child c).total t e)
  var : a.fixed = false → ∃ off : Nat → Nat, ∀ t, t < m.types →
    ((List.range n).any fun c => (lchild c).contains t) = true → a.gtEntityOffsets[t]? = some (off t) ∧
    ∀ e c, e < m.count t → c < n →
      a.entityDofOffsets[(off t + e) * n + c]? = some (psum (fun c => (child c).total t e) (c + 1))

theorem nodeArrays_ok {m : Mesh} {n : Nat} {child : Nat → Space} {lchild : Nat → Local}
    (hch : ∀ c, c < n → LocOk m (child c) (lchild c)) :
    ∃ a, nodeArrays m n lchild = some a ∧ NodeOk m n child lchild a := by
  let usedf : Nat → Bool := fun t => (List.range n).any fun c => (lchild c).contains t
  let used : List Bool := (List.range m.types).map usedf
  have hused : ∀ t, t < m.types → used.getD t false = usedf t := by
    intro t ht; simp [used, List.getD, ht]
  let cn : Nat → Nat := fun t => if used.getD t false then m.count t else 0
  let eo := partialSums 0 ((List.range m.types).map cn)
  cases hall : (List.range n).all fun c => (lchild c).fixed with
  | true =>
    let F : Nat → Nat → Nat := fun t c => ((lchild c).size t 0).getD 0
    have hF : ∀ t c, t < m.types → c < n → (lchild c).size t 0 = some (F t c) := by
      intro t c ht hc
      have hfx : (lchild c).fixed = true := by
        rw [List.all_eq_true] at hall
        exact hall c (List.mem_range.2 hc)
      obtain ⟨f, hf⟩ := (hch c hc).fixed hfx
      simp only [F, hf t 0 ht, Option.getD_some]
    have hF' : ∀ t e c, t < m.types → e < m.count t → c < n → F t c = (child c).total t e := by
      intro t e c ht he hc
      have hfx : (lchild c).fixed = true := by
        rw [List.all_eq_true] at hall
        exact hall c (List.mem_range.2 hc)
      obtain ⟨f, hf⟩ := (hch c hc).fixed hfx
      have h1 := (hch c hc).size t e ht he
      rw [hf t e ht] at h1
      have h2 := hF t c ht hc
      rw [hf t 0 ht] at h2
      injection h1 with h1; injection h2 with h2
      rw [← h2, h1]
    refine ⟨⟨true, used, eo, ((List.range m.types).map fun t => runningSums ((List.range n).map (F t))).flatten, []⟩, ?_, ?_, ?_, ?_⟩
    · unfold nodeArrays
      dsimp only
      rw [if_pos hall, mapM_some _ _ (fun t => runningSums ((List.range n).map (F t)))]
      · rfl
      · intro t ht
        rw [mapM_some _ _ (F t) (fun c hc => hF t c (List.mem_range.1 ht) (List.mem_range.1 hc))]; rfl
    · rfl
    · intro _
      refine ⟨F, ?_, hF'⟩
      intro t c ht hc
      rw [flatten_get (n := n) (by simp [runningSums_length]) t c hc, List.getElem?_map, List.getElem?_range ht]
      simp only [Option.map_some, Option.bind_some]
      exact runningSums_get (F t) n c hc
    · intro h; simp at h
  | false =>
    have hcnt : ∀ t, t < m.types → eo.getD (t + 1) 0 - eo.getD t 0 = cn t := by
      intro t ht
      simp only [eo, List.getD, ps_get' cn m.types t (by omega), ps_get' cn m.types (t + 1) (by omega), Option.getD_some, psum_succ]
      omega
    let G : Nat → Nat → List Nat := fun t e => runningSums ((List.range n).map fun c => (child c).total t e)
    refine ⟨⟨false, used, eo, [], (((List.range m.types).filter fun t => used.getD t false).map fun t =>
        (List.range (cn t)).map (G t)).flatten.flatten⟩, ?_, ?_, ?_, ?_⟩
    · unfold nodeArrays
      dsimp only
      rw [if_neg (by rw [hall]; simp)]
      rw [mapM_some _ _ (fun t => (List.range (cn t)).map (G t))]
      · rfl
      · intro t ht
        have ht' : t < m.types := List.mem_range.1 (List.mem_filter.1 ht).1
        have hc : cn t = m.count t := by
          have hu : used.getD t false = true := (List.mem_filter.1 ht).2
          simp only [cn]
          rw [if_pos hu]
        change (List.range (eo.getD (t + 1) 0 - eo.getD t 0)).mapM _ = _
        rw [hcnt t ht']
        apply mapM_some
        intro e he
        have he' : e < m.count t := by rw [← hc]; exact List.mem_range.1 he
        rw [mapM_some _ _ (fun c => (child c).total t e)
          (fun c hc => (hch c (List.mem_range.1 hc)).size t e ht' he')]; rfl
    · rfl
    · intro h; simp at h
    · intro _
      refine ⟨psum cn, ?_⟩
      intro t ht hu
      refine ⟨ps_get' cn m.types t (by omega), ?_⟩
      intro e c he hc
      have h0 : ∀ t, used.getD t false = false → (List.range (cn t)).map (G t) = [] := by
        intro t h; simp only [cn, h, Bool.false_eq_true, if_false]; rfl
      rw [filter_flatten _ _ _ h0]
      have hlen : ∀ l ∈ (List.range m.types).flatMap fun t => (List.range (cn t)).map (G t), l.length = n := by
        intro l hl
        simp only [List.mem_flatMap, List.mem_map] at hl
        obtain ⟨t, _, e, _, rfl⟩ := hl
        simp [G, runningSums_length]
      have hecn : e < cn t := by
        simp only [cn, hused t ht]
        rw [if_pos hu]; exact he
      change ((List.range m.types).flatMap fun t => (List.range (cn t)).map (G t)).flatten[(psum cn t + e) * n + c]? = _
      rw [flatten_get hlen _ c hc, flatMap_get cn G m.types t e ht hecn]
      simp only [Option.bind_some]
      exact runningSums_get (fun c => (child c).total t e) n c hc

theorem node_contains {m : Mesh} {n : Nat} {child : Nat → Space} {lchild : Nat → Local} {a : Arrays} {b : Bool}
    (h : NodeOk m n child lchild a) (t : Nat) (ht : t < m.types) :
    (Local.node b (some a) n lchild).contains t = (List.range n).any fun c => (lchild c).contains t := by
  simp [Local.contains, Local.arrays, h.used, ht]

theorem size_node {b : Bool} {n : Nat} {lchild : Nat → Local} {a : Arrays} (hn : 0 < n) (t e : Nat) :
    (Local.node b (some a) n lchild).size t e =
      if a.fixed then a.gtDofOffsets[t * n + n - 1]?
      else a.gtUsed[t]?.bind fun u =>
        if u then a.gtEntityOffsets[t]?.bind fun off => a.entityDofOffsets[(off + e) * n + n - 1]? else some 0 := by
  change (if a.fixed then (if 0 < n then a.gtDofOffsets[t * n + n - 1]? else a.gtDofOffsets[t]?)
    else a.gtUsed[t]?.bind fun u =>
      if u then a.gtEntityOffsets[t]?.bind fun off =>
        if 0 < n then a.entityDofOffsets[(off + e) * n + n - 1]? else a.entityDofOffsets[off + e]?
      else some 0) = _
  simp only [hn, if_true]

theorem node_ok {m : Mesh} {b : Bool} {n : Nat} {child : Nat → Space} {lchild : Nat → Local} {a : Arrays}
    (hn : 0 < n) (hch : ∀ c, c < n → LocOk m (child c) (lchild c)) (h : NodeOk m n child lchild a) :
    LocOk m (.node b n child) (.node b (some a) n lchild) := by
  refine ⟨⟨a, rfl, by simp [h.used]⟩, ?_, ?_, ?_⟩
  · intro t e ht he hc
    rw [node_contains h t ht] at hc
    simp only [Space.total]
    rw [List.sum_eq_zero]
    intro x hx
    obtain ⟨c, hc', rfl⟩ := List.mem_map.1 hx
    have hcn := List.mem_range.1 hc'
    apply (hch c hcn).unused t e ht he
    rw [List.any_eq_false] at hc
    simpa using hc c hc'
  · intro t e ht he
    cases hf : a.fixed with
    | true =>
      obtain ⟨F, h1, h2⟩ := h.fx hf
      rw [size_node hn, hf, if_pos rfl, show t * n + n - 1 = t * n + (n - 1) by omega, h1 t (n - 1) ht (by omega), show n - 1 + 1 = n by omega]
      congr 1
      apply psum_congr
      intro c hc
      exact h2 t e c ht he hc
    | false =>
      obtain ⟨off, h1⟩ := h.var hf
      rw [size_node hn, hf]
      simp only [Bool.false_eq_true, if_false]
      have hu : a.gtUsed[t]? = some ((List.range n).any fun c => (lchild c).contains t) := by
        rw [h.used, List.getElem?_map, List.getElem?_range ht]; rfl
      rw [hu, Option.bind_some]
      cases hany : (List.range n).any fun c => (lchild c).contains t with
      | false =>
        simp only [Bool.false_eq_true, if_false]
        congr 1
        symm
        simp only [Space.total]
        rw [List.sum_eq_zero]
        intro x hx
        obtain ⟨c, hc', rfl⟩ := List.mem_map.1 hx
        have hcn := List.mem_range.1 hc'
        apply (hch c hcn).unused t e ht he
        rw [List.any_eq_false] at hany
        simpa using hany c hc'
      | true =>
        obtain ⟨h2, h3⟩ := h1 t ht hany
        simp only [if_true, h2, Option.bind_some]
        rw [show (off t + e) * n + n - 1 = (off t + e) * n + (n - 1) by omega, h3 e (n - 1) he (by omega),
          show n - 1 + 1 = n by omega]
        rfl
  · intro hf
    have hf : a.fixed = true := by simpa [Local.fixed, Local.arrays] using hf
    obtain ⟨F, h1, h2⟩ := h.fx hf
    refine ⟨fun t => psum (F t) n, ?_⟩
    intro t e ht
    rw [size_node hn, hf, if_pos rfl, show t * n + n - 1 = t * n + (n - 1) by omega, h1 t (n - 1) ht (by omega), show n - 1 + 1 = n by omega]

theorem loc_ok {m : Mesh} (s : Space) (hv : s.Valid m) (hl : s.LeavesOk m) : LocOk m s (s.localOrdering m) := by
  induction s with
  | leaf fem cells => exact leaf_ok hv hl
  | node b n child ih =>
    have hch : ∀ c, c < n → LocOk m (child c) ((child c).localOrdering m) := fun c hc => ih c (hv.2 c hc) (hl c hc)
    obtain ⟨a, h1, h2⟩ := nodeArrays_ok (m := m) (n := n) (child := child)
      (lchild := fun c => (child c).localOrdering m) hch
    simp only [Space.localOrdering, h1]
    exact node_ok hv.1 hch h2

theorem dof_total_pos {s : Space} {t e : Nat} {p : List Nat} (h : s.IsDof t e p) : 0 < s.total t e := by
  induction s generalizing p with
  | leaf fem cells => obtain ⟨i, _, hi⟩ := h; simp only [Space.total]; omega
  | node b n child ih =>
    obtain ⟨c, q, rfl, hc, hq⟩ := h
    exact psum_pos (fun c => (child c).total t e) hc (ih c hq)

/-- Contribution of an inner node to a container index. -/
theorem mapLocal_node {m : Mesh} {b : Bool} {n : Nat} {child : Nat → Space} {lchild : Nat → Local} {a : Arrays}
    (hch : ∀ c, c < n → LocOk m (child c) (lchild c)) (h : NodeOk m n child lchild a)
    {t e c : Nat} {q : List Nat} (ht : t < m.types) (he : e < m.count t) (hc : c < n) (hd : (child c).IsDof t e q)
    {x : Nat} {r : List Nat} (hq : (lchild c).mapLocal t e q = some (x :: r)) :
    (Local.node b (some a) n lchild).mapLocal t e (c :: q) =
      some (if b then c :: x :: r else (x + psum (fun c => (child c).total t e) c) :: r) := by
  simp only [Local.mapLocal, if_pos hc, hq, Option.bind_some]
  cases b with
  | true => rfl
  | false =>
    simp only [Bool.false_eq_true, if_false]
    by_cases h0 : 0 < c
    · rw [if_pos h0]
      have hc1 : c - 1 < n := by omega
      have hcc : c - 1 + 1 = c := by omega
      cases hf : a.fixed with
      | true =>
        obtain ⟨F, h1, h2⟩ := h.fx hf
        simp only [if_true]
        rw [show t * n + c - 1 = t * n + (c - 1) by omega, h1 t (c - 1) ht hc1, Option.bind_some, hcc]
        simp only [addBack]
        congr 2
        congr 1
        apply psum_congr
        intro i hi
        exact h2 t e i ht he (by omega)
      | false =>
        obtain ⟨off, h1⟩ := h.var hf
        have hu : a.gtUsed[t]? = some ((List.range n).any fun c => (lchild c).contains t) := by
          rw [h.used, List.getElem?_map, List.getElem?_range ht]; rfl
        have hany : ((List.range n).any fun c => (lchild c).contains t) = true := by
          rw [List.any_eq_true]
          refine ⟨c, List.mem_range.2 hc, ?_⟩
          cases hcc : (lchild c).contains t with
          | true => rfl
          | false =>
            have := (hch c hc).unused t e ht he hcc
            have := dof_total_pos hd
            omega
        obtain ⟨h2, h3⟩ := h1 t ht hany
        simp only [Bool.false_eq_true, if_false, hu, Option.bind_some, hany, if_true, h2]
        rw [show (off t + e) * n + c - 1 = (off t + e) * n + (c - 1) by omega, h3 e (c - 1) he hc1, hcc]
        rfl
    · rw [if_neg h0]
      have : c = 0 := by omega
      subst this
      simp

/-- Local container indices of spaces without holes in their blocked nodes are injective. -/
theorem mapLocal_inj {m : Mesh} (s : Space) (hv : s.Valid m) (hl : s.LeavesOk m) {t e : Nat} (ht : t < m.types)
    (he : e < m.count t) (hd : s.Dense t e) :
    (∀ p, s.IsDof t e p → ∃ x r, (s.localOrdering m).mapLocal t e p = some (x :: r) ∧ x < s.total t e) ∧
    (∀ p p', s.IsDof t e p → s.IsDof t e p' →
      (s.localOrdering m).mapLocal t e p = (s.localOrdering m).mapLocal t e p' → p = p') := by
  induction s with
  | leaf fem cells =>
    constructor
    · rintro p ⟨i, rfl, hi⟩; exact ⟨i, [], rfl, hi⟩
    · rintro p p' ⟨i, rfl, _⟩ ⟨j, rfl, _⟩ h
      simpa [Space.localOrdering, Local.mapLocal] using h
  | node b n child ih =>
    have hch : ∀ c, c < n → LocOk m (child c) ((child c).localOrdering m) :=
      fun c hc => loc_ok _ (hv.2 c hc) (hl c hc)
    obtain ⟨a, h1, h2⟩ := nodeArrays_ok (m := m) (n := n) (child := child)
      (lchild := fun c => (child c).localOrdering m) hch
    have ihc := fun c (hc : c < n) => ih c (hv.2 c hc) (hl c hc) (hd.2 c hc)
    simp only [Space.localOrdering, h1]
    constructor
    · rintro p ⟨c, q, rfl, hc, hq⟩
      obtain ⟨x, r, hx, hlt⟩ := (ihc c hc).1 q hq
      rw [mapLocal_node (b := b) hch h2 ht he hc hq hx]
      cases b with
      | false =>
        refine ⟨_, _, rfl, ?_⟩
        have := psum_add_lt (fun c => (child c).total t e) hc hlt
        rw [Nat.add_comm]; exact this
      | true =>
        refine ⟨c, x :: r, rfl, ?_⟩
        rcases hd.1 rfl with hpos | h0
        · have hle : ∀ k, k ≤ n → k ≤ psum (fun c => (child c).total t e) k := by
            intro k
            induction k with
            | zero => simp
            | succ k ihk =>
              intro hk
              rw [psum_succ]
              have := ihk (by omega)
              have := hpos k (by omega)
              omega
          have := hle n (le_refl _)
          exact Nat.lt_of_lt_of_le hc this
        · have := dof_total_pos hq
          have := h0 c hc
          omega
    · rintro p p' ⟨c, q, rfl, hc, hq⟩ ⟨c', q', rfl, hc', hq'⟩ heq
      obtain ⟨x, r, hx, hlt⟩ := (ihc c hc).1 q hq
      obtain ⟨x', r', hx', hlt'⟩ := (ihc c' hc').1 q' hq'
      rw [mapLocal_node (b := b) hch h2 ht he hc hq hx, mapLocal_node (b := b) hch h2 ht he hc' hq' hx'] at heq
      cases b with
      | false =>
        simp only [Bool.false_eq_true, if_false, Option.some.injEq, List.cons.injEq] at heq
        obtain ⟨rfl, rfl⟩ := psum_inj (fun c => (child c).total t e) hlt hlt' (by omega)
        have : q = q' := by
          apply (ihc c hc).2 q q' hq hq'
          rw [hx, hx', heq.2]
        rw [this]
      | true =>
        simp only [if_true, Option.some.injEq, List.cons.injEq] at heq
        obtain ⟨rfl, rfl, rfl⟩ := heq
        have : q = q' := (ihc c hc).2 q q' hq hq' (by rw [hx, hx'])
        rw [this]

/-- Without blocked nodes the local container indices are `[0], ..., [total-1]`. -/
theorem mapLocal_flat {m : Mesh} (s : Space) (hv : s.Valid m) (hl : s.LeavesOk m) (hfl : s.Flat) {t e : Nat}
    (ht : t < m.types) (he : e < m.count t) :
    (∀ p, s.IsDof t e p → ∃ x, (s.localOrdering m).mapLocal t e p = some [x] ∧ x < s.total t e) ∧
    (∀ k, k < s.total t e → ∃ p, s.IsDof t e p ∧ (s.localOrdering m).mapLocal t e p = some [k]) := by
  induction s with
  | leaf fem cells =>
    constructor
    · rintro p ⟨i, rfl, hi⟩; exact ⟨i, rfl, hi⟩
    · intro k hk; exact ⟨[k], ⟨k, rfl, hk⟩, rfl⟩
  | node b n child ih =>
    have hch : ∀ c, c < n → LocOk m (child c) ((child c).localOrdering m) :=
      fun c hc => loc_ok _ (hv.2 c hc) (hl c hc)
    obtain ⟨a, h1, h2⟩ := nodeArrays_ok (m := m) (n := n) (child := child)
      (lchild := fun c => (child c).localOrdering m) hch
    have ihc := fun c (hc : c < n) => ih c (hv.2 c hc) (hl c hc) (hfl.2 c hc)
    obtain ⟨rfl, _⟩ := hfl
    simp only [Space.localOrdering, h1]
    constructor
    · rintro p ⟨c, q, rfl, hc, hq⟩
      obtain ⟨x, hx, hlt⟩ := (ihc c hc).1 q hq
      rw [mapLocal_node (b := false) hch h2 ht he hc hq hx]
      refine ⟨_, rfl, ?_⟩
      have := psum_add_lt (fun c => (child c).total t e) hc hlt
      rw [Nat.add_comm]; exact this
    · intro k hk
      obtain ⟨c, j, hc, hj, rfl⟩ := psum_exists (fun c => (child c).total t e) n k hk
      obtain ⟨q, hq, hx⟩ := (ihc c hc).2 j hj
      refine ⟨c :: q, ⟨c, q, rfl, hc, hq⟩, ?_⟩
      rw [mapLocal_node (b := false) hch h2 ht he hc hq hx]
      simp [Nat.add_comm]

theorem flat_dense {s : Space} (h : s.Flat) (t e : Nat) : s.Dense t e := by
  induction s with
  | leaf fem cells => trivial
  | node b n child ih => exact ⟨fun hb => by rw [h.1] at hb; simp at hb, fun c hc => ih c (h.2 c hc)⟩

/-! ### The grid view ordering -/

/-- Number of indices that an entity occupies in the outermost level of the container. -/
def width (blocked : Bool) (n : Nat) : Nat := if blocked then (if 0 < n then 1 else 0) else n

/-- A placement `P` of the entities: entity `(t,e)` occupies `P t e, ..., P t e + w t e - 1`; the ranges are
disjoint and cover `0..W-1`. -/
structure Packing (m : Mesh) (w P : Nat → Nat → Nat) (W : Nat) : Prop where
  lt : ∀ t e k, t < m.types → e < m.count t → k < w t e → P t e + k < W
  inj : ∀ t e k t' e' k', t < m.types → e < m.count t → k < w t e → t' < m.types → e' < m.count t' → k' < w t' e' →
    P t e + k = P t' e' + k' → t = t' ∧ e = e' ∧ k = k'
  surj : ∀ j, j < W → ∃ t e k, t < m.types ∧ e < m.count t ∧ k < w t e ∧ P t e + k = j

theorem packing_fixed (m : Mesh) (w : Nat → Nat → Nat) (k : Nat → Nat) (hk : ∀ t e, t < m.types → e < m.count t → w t e = k t) :
    Packing m w (fun t e => psum (fun t => k t * m.count t) t + e * k t) (psum (fun t => k t * m.count t) m.types) := by
  have hin : ∀ t e j, e < m.count t → j < k t → e * k t + j < k t * m.count t := by
    intro t e j he hj
    have h1 : (e + 1) * k t ≤ m.count t * k t := Nat.mul_le_mul_right _ he
    rw [Nat.succ_mul] at h1
    rw [Nat.mul_comm (k t)]
    omega
  refine ⟨?_, ?_, ?_⟩
  · intro t e j ht he hj
    rw [hk t e ht he] at hj
    rw [Nat.add_assoc]
    exact psum_add_lt (fun t => k t * m.count t) ht (hin t e j he hj)
  · intro t e j t' e' j' ht he hj ht' he' hj' heq
    rw [hk t e ht he] at hj
    rw [hk t' e' ht' he'] at hj'
    rw [Nat.add_assoc, Nat.add_assoc] at heq
    obtain ⟨rfl, h⟩ := psum_inj (fun t => k t * m.count t) (hin t e j he hj) (hin t' e' j' he' hj') heq
    refine ⟨rfl, ?_⟩
    have hpos : 0 < k t := by omega
    have he2 : e = e' := by
      have h1 : (e * k t + j) / k t = e := by
        rw [Nat.mul_comm, Nat.mul_add_div hpos, Nat.div_eq_of_lt hj, Nat.add_zero]
      have h2 : (e' * k t + j') / k t = e' := by
        rw [Nat.mul_comm, Nat.mul_add_div hpos, Nat.div_eq_of_lt hj', Nat.add_zero]
      rw [← h1, ← h2, h]
    subst he2
    exact ⟨rfl, by omega⟩
  · intro j hj
    obtain ⟨t, i, ht, hi, rfl⟩ := psum_exists _ _ j hj
    have hpos : 0 < k t := by
      rcases Nat.eq_zero_or_pos (k t) with h | h
      · simp only [h, Nat.zero_mul] at hi; omega
      · exact h
    have he : i / k t < m.count t := Nat.div_lt_of_lt_mul hi
    refine ⟨t, i / k t, i % k t, ht, he, ?_, ?_⟩
    · rw [hk t _ ht he]; exact Nat.mod_lt _ hpos
    · have := Nat.div_add_mod i (k t)
      rw [Nat.mul_comm] at this
      omega

theorem packing_var (m : Mesh) (w : Nat → Nat → Nat) (cn : Nat → Nat) (h : Nat → Nat)
    (hcn : ∀ t e, t < m.types → e < m.count t → 0 < w t e → e < cn t) (hle : ∀ t, cn t ≤ m.count t)
    (hh : ∀ t e, t < m.types → e < cn t → h (psum cn t + e) = w t e) :
    Packing m w (fun t e => psum h (psum cn t + e)) (psum h (psum cn m.types)) := by
  refine ⟨?_, ?_, ?_⟩
  · intro t e k ht he hk
    have hc := hcn t e ht he (by omega)
    exact psum_add_lt h (psum_add_lt cn ht hc) (by rw [hh t e ht hc]; exact hk)
  · intro t e k t' e' k' ht he hk ht' he' hk' heq
    have hc := hcn t e ht he (by omega)
    have hc' := hcn t' e' ht' he' (by omega)
    obtain ⟨h1, h2⟩ := psum_inj h (by rw [hh t e ht hc]; exact hk) (by rw [hh t' e' ht' hc']; exact hk') heq
    obtain ⟨rfl, rfl⟩ := psum_inj cn hc hc' h1
    exact ⟨rfl, rfl, h2⟩
  · intro j hj
    obtain ⟨i, k, hi, hk, rfl⟩ := psum_exists _ _ j hj
    obtain ⟨t, e, ht, he, rfl⟩ := psum_exists _ _ i hi
    refine ⟨t, e, k, ht, lt_of_lt_of_le he (hle t), ?_, rfl⟩
    rw [hh t e ht he] at hk; exact hk

theorem disable_valid {m : Mesh} {s : Space} (h : s.Valid m) : s.disableBlocking.Valid m := by
  cases s <;> exact h

theorem disable_leaves {m : Mesh} {s : Space} (h : s.LeavesOk m) : s.disableBlocking.LeavesOk m := by
  cases s with
  | leaf fem cells => exact h
  | node b n child => exact h

theorem disable_total (s : Space) (t e : Nat) : s.disableBlocking.total t e = s.total t e := by cases s <;> rfl

theorem disable_dof (s : Space) (t e : Nat) (p : List Nat) : s.disableBlocking.IsDof t e p = s.IsDof t e p := by
  cases s <;> rfl

/-- What an updated grid view ordering does. -/
structure GvoOk (m : Mesh) (s : Space) (g : GVO) (P : Nat → Nat → Nat) (W : Nat) : Prop where
  loc : g.loc = s.disableBlocking.localOrdering m
  packing : Packing m (fun t e => width s.blocked (s.total t e)) P W
  map : ∀ t e p ci, t < m.types → e < m.count t → 0 < s.total t e → g.loc.mapLocal t e p = some ci →
    g.mapIndex t e p = if s.blocked then some (P t e :: ci) else addBack (P t e) ci
  count : s.blocked = true ∨ g.fixed = true → g.blockCount = W
  total : g.size = dofTotal m s
  whole : s.blocked = false → W = g.size
  sizeOf : ∀ t e k d, t < m.types → e < m.count t → k < width s.blocked (s.total t e) → s.blocked = true → d ≠ 1 →
    g.sizeOf d [P t e + k] = some (s.total t e)

theorem dofTotal_fixed {m : Mesh} {s : Space} {f : Nat → Nat}
    (hf : ∀ t e, t < m.types → e < m.count t → s.total t e = f t) :
    ((List.range m.types).map fun t => f t * m.count t).sum = dofTotal m s := by
  unfold dofTotal
  congr 1
  apply List.map_congr_left
  intro t ht
  have ht := List.mem_range.1 ht
  have h : (List.range (m.count t)).map (fun e => s.total t e) = (List.range (m.count t)).map fun _ => f t :=
    List.map_congr_left fun e he => hf t e ht (List.mem_range.1 he)
  rw [h, List.map_const', List.sum_replicate_nat, List.length_range, Nat.mul_comm]

theorem psum_le {f g : Nat → Nat} {n : Nat} (h : ∀ i, i < n → f i = g i) : psum f n = psum g n := psum_congr h

theorem gvo_fixed {m : Mesh} {s : Space} (hv : s.Valid m) (hl : s.LeavesOk m)
    (hfix : (s.disableBlocking.localOrdering m).fixed = true) :
    ∃ g P W, update m s = some g ∧ g.fixed = true ∧ GvoOk m s g P W := by
  have hok := loc_ok _ (disable_valid hv) (disable_leaves hl)
  obtain ⟨f, hf⟩ := hok.fixed hfix
  have hft : ∀ t e, t < m.types → e < m.count t → s.total t e = f t := by
    intro t e ht he
    have h1 := hok.size t e ht he
    rw [hf t e ht, disable_total] at h1
    injection h1 with h1; exact h1.symm
  let sizes := (List.range m.types).map f
  have hsz : ∀ t, t < m.types → sizes.getD t 0 = f t := by intro t ht; simp [sizes, List.getD, ht]
  let k : Nat → Nat := fun t => width s.blocked (sizes.getD t 0)
  let F : Nat → Nat := fun t => k t * m.count t
  let offs := partialSums 0 ((List.range m.types).map F)
  have hpk := packing_fixed m (fun t e => width s.blocked (s.total t e)) k (by
    intro t e ht he
    simp only [k, hsz t ht, hft t e ht he])
  have hsize : ((List.range m.types).map fun t => sizes.getD t 0 * m.count t).sum = dofTotal m s := by
    have h1 : ((List.range m.types).map fun t => sizes.getD t 0 * m.count t) = (List.range m.types).map fun t => f t * m.count t :=
      List.map_congr_left fun t ht => by rw [hsz t (List.mem_range.1 ht)]
    rw [h1]; exact dofTotal_fixed hft
  refine ⟨⟨s.blocked, true, offs, [], [], ((List.range m.types).map fun t => sizes.getD t 0 * m.count t).sum,
    offs.getLast?.getD 0, s.disableBlocking.localOrdering m⟩,
    fun t e => psum F t + e * k t, psum F m.types, ?_, rfl, rfl, hpk, ?_, ?_, ?_, ?_, ?_⟩
  · unfold update
    dsimp only
    rw [if_pos hfix, updateFixed, mapM_some _ _ f (fun t ht => hf t 0 (List.mem_range.1 ht))]
    rfl
  · intro t e p ci ht he hpos hci
    have hci : (s.disableBlocking.localOrdering m).mapLocal t e p = some ci := hci
    have hk : sizes.getD t 0 = s.total t e := by rw [hsz t ht, hft t e ht he]
    simp only [GVO.mapIndex, hci, Option.bind_some, if_true]
    rw [ps_get' F m.types t (by omega)]
    cases hb : s.blocked with
    | true =>
      simp only [if_true, Option.map_some]
      have : k t = 1 := by simp only [k, hk, hb, width, if_true, if_pos hpos]
      rw [this, Nat.mul_one]
    | false =>
      simp only [Bool.false_eq_true, if_false, Option.bind_some, hf t e ht]
      have : k t = f t := by simp only [k, hsz t ht, hb, width, Bool.false_eq_true, if_false]
      rw [this]
  · intro _
    exact ps_last F m.types
  · exact hsize
  · intro hb
    change psum F m.types = ((List.range m.types).map fun t => sizes.getD t 0 * m.count t).sum
    have : F = fun t => sizes.getD t 0 * m.count t := by
      funext t
      simp only [F, k, hb, width, Bool.false_eq_true, if_false]
    rw [this]; rfl
  · intro t e j d ht he hj hb hd
    have hk : k t = 1 := by
      have : 0 < s.total t e := by
        simp only [width, hb, if_true] at hj
        split at hj <;> omega
      simp only [k, hsz t ht, ← hft t e ht he, hb, width, if_true, if_pos this]
    have hj0 : j = 0 := by
      simp only [width, hb, if_true] at hj
      split at hj <;> omega
    subst hj0
    rw [hk, Nat.mul_one, Nat.add_zero]
    have hub : upperBound offs (psum F t + e) = some (t + 1) := by
      apply upperBound_psum ht (by omega)
      rw [psum_succ]
      have : F t = m.count t := by simp only [F, hk, Nat.one_mul]
      omega
    simp only [GVO.sizeOf, List.length_singleton, if_neg (Ne.symm hd), hb, if_true, hub, Option.bind_some]
    rw [if_pos (by omega)]
    simp only [Nat.add_sub_cancel, Local.nodeSize, Option.elim, hfix, if_true]
    rw [hf t 0 ht, hft t e ht he]

theorem sum_flatMap_total (m : Mesh) (s : Space) (cn : Nat → Nat) (T : Nat)
    (h : ∀ t, t < T → cn t = m.count t ∨ (cn t = 0 ∧ ∀ e, e < m.count t → s.total t e = 0)) :
    ((List.range T).flatMap fun t => (List.range (cn t)).map fun e => s.total t e).sum =
      ((List.range T).map fun t => ((List.range (m.count t)).map fun e => s.total t e).sum).sum := by
  induction T with
  | zero => rfl
  | succ T ih =>
    rw [List.range_succ, List.flatMap_append, List.sum_append, List.map_append, List.sum_append, ih (fun t ht => h t (by omega))]
    congr 1
    simp only [List.flatMap_cons, List.flatMap_nil, List.append_nil, List.map_cons, List.map_nil, List.sum_cons, List.sum_nil,
      Nat.add_zero]
    rcases h T (by omega) with h1 | ⟨h1, h2⟩
    · rw [h1]
    · rw [h1]
      symm
      change _ = 0
      apply List.sum_eq_zero
      intro x hx
      obtain ⟨e, he, rfl⟩ := List.mem_map.1 hx
      exact h2 e (List.mem_range.1 he)

theorem gvo_var {m : Mesh} {s : Space} (hv : s.Valid m) (hl : s.LeavesOk m)
    (hfix : (s.disableBlocking.localOrdering m).fixed = false) :
    ∃ g P W, update m s = some g ∧ g.fixed = false ∧ GvoOk m s g P W := by
  have hok := loc_ok _ (disable_valid hv) (disable_leaves hl)
  let loc := s.disableBlocking.localOrdering m
  let cn : Nat → Nat := fun t => if loc.contains t then m.count t else 0
  let eo := partialSums 0 ((List.range m.types).map cn)
  have hcnt : ∀ t, t < m.types → eo.getD (t + 1) 0 - eo.getD t 0 = cn t := by
    intro t ht
    simp only [eo, List.getD, ps_get' cn m.types t (by omega), ps_get' cn m.types (t + 1) (by omega), Option.getD_some, psum_succ]
    omega
  let sizes := (List.range m.types).flatMap fun t => (List.range (cn t)).map fun e => s.total t e
  have hslen : sizes.length = psum cn m.types := flatMap_length cn (fun t e => s.total t e) m.types
  have hsget : ∀ t e, t < m.types → e < cn t → sizes[psum cn t + e]? = some (s.total t e) :=
    fun t e ht he => flatMap_get cn (fun t e => s.total t e) m.types t e ht he
  let h : Nat → Nat := fun i => (sizes.map fun x => width s.blocked x).getD i 0
  have hmap : (sizes.map fun x => width s.blocked x) = (List.range (psum cn m.types)).map h := by
    rw [← hslen]
    have := Orderings.sizes_eq (sizes.map fun x => width s.blocked x)
    rw [List.length_map] at this
    exact this
  have hh : ∀ t e, t < m.types → e < cn t → h (psum cn t + e) = width s.blocked (s.total t e) := by
    intro t e ht he
    simp only [h, List.getD, List.getElem?_map, hsget t e ht he, Option.map_some, Option.getD_some]
  have hun : ∀ t e, t < m.types → e < m.count t → loc.contains t = false → s.total t e = 0 := by
    intro t e ht he hc
    rw [← disable_total]
    exact hok.unused t e ht he hc
  have hcn : ∀ t e, t < m.types → e < m.count t → 0 < s.total t e → e < cn t := by
    intro t e ht he hp
    simp only [cn]
    cases hc : loc.contains t with
    | true => simpa using he
    | false => have := hun t e ht he hc; omega
  have hle : ∀ t, cn t ≤ m.count t := by
    intro t; simp only [cn]; split <;> omega
  have hpk := packing_var m (fun t e => width s.blocked (s.total t e)) cn h (by
    intro t e ht he hp
    apply hcn t e ht he
    simp only [width] at hp
    split at hp
    · split at hp
      · assumption
      · omega
    · exact hp) hle hh
  have hflat : ∀ t, loc.contains t = false → (List.range (cn t)).map (fun e => s.total t e) = [] := by
    intro t hc; simp only [cn, hc, Bool.false_eq_true, if_false]; rfl
  have hupd : update m s = some ⟨s.blocked, false, [], eo, partialSums 0 (sizes.map fun x => width s.blocked x), sizes.sum,
      (sizes.map fun x => if 0 < x then 1 else 0).sum, loc⟩ := by
    unfold update
    dsimp only
    rw [if_neg (by rw [hfix]; simp), updateVar]
    dsimp only
    rw [mapM_some _ _ (fun t => (List.range (cn t)).map fun e => s.total t e)]
    · rw [Option.map_some, filter_flatten _ _ _ hflat]
      rfl
    · intro t ht
      have ht' : t < m.types := List.mem_range.1 (List.mem_filter.1 ht).1
      have hct : loc.contains t = true := (List.mem_filter.1 ht).2
      change (List.range (eo.getD (t + 1) 0 - eo.getD t 0)).mapM _ = _
      rw [hcnt t ht']
      apply mapM_some
      intro e he
      have he' : e < m.count t := by
        have := List.mem_range.1 he
        simp only [cn, hct, if_true] at this; exact this
      rw [hok.size t e ht' he', disable_total]
  refine ⟨_, fun t e => psum h (psum cn t + e), psum h (psum cn m.types), hupd, rfl, rfl, hpk, ?_, ?_, ?_, ?_, ?_⟩
  · intro t e p ci ht he hpos hci
    have hci : loc.mapLocal t e p = some ci := hci
    have hc := hcn t e ht he hpos
    simp only [GVO.mapIndex, hci, Option.bind_some, Bool.false_eq_true, if_false]
    rw [show eo[t]? = some (psum cn t) from ps_get' cn m.types t (by omega)]
    simp only [Option.bind_some]
    rw [hmap, ps_get' h _ _ (Nat.le_of_lt (psum_add_lt cn ht hc))]
    cases s.blocked <;> rfl
  · rintro (hb | hb)
    · change (sizes.map fun x => if 0 < x then 1 else 0).sum = _
      have : (fun x : Nat => if 0 < x then 1 else 0) = fun x => width s.blocked x := by
        funext x; simp only [width, hb, if_true]
      rw [this, hmap]; rfl
    · simp at hb
  · change sizes.sum = _
    apply sum_flatMap_total
    intro t ht
    simp only [cn]
    cases hc : loc.contains t with
    | true => left; rfl
    | false => right; exact ⟨rfl, fun e he => hun t e ht he hc⟩
  · intro hb
    change _ = sizes.sum
    have h1 : (sizes.map fun x => width s.blocked x) = sizes := by
      have : (fun x : Nat => width s.blocked x) = id := by
        funext x; simp only [width, hb, Bool.false_eq_true, if_false, id]
      rw [this, List.map_id]
    rw [← h1, hmap]; rfl
  · intro t e j d ht he hj hb hd
    have hpos : 0 < s.total t e := by
      simp only [width, hb, if_true] at hj
      split at hj
      · assumption
      · omega
    have hj0 : j = 0 := by
      simp only [width, hb, if_true] at hj
      split at hj <;> omega
    subst hj0
    have hc := hcn t e ht he hpos
    have hlt := psum_add_lt cn ht hc
    have hw : h (psum cn t + e) = 1 := by
      rw [hh t e ht hc, width, if_pos hb, if_pos hpos]
    have hub : upperBound (partialSums 0 (sizes.map fun x => width s.blocked x)) (psum h (psum cn t + e)) =
        some (psum cn t + e + 1) := by
      rw [hmap]
      apply upperBound_psum hlt (le_refl _)
      rw [psum_succ]; omega
    have hgub : upperBound eo (psum cn t + e) = some (t + 1) := by
      apply upperBound_psum ht (by omega)
      rw [psum_succ]; omega
    have heo : eo[t]? = some (psum cn t) := ps_get' cn m.types t (by omega)
    rw [hb] at hub
    simp only [GVO.sizeOf, List.length_singleton, if_neg (Ne.symm hd), hb, if_true, Bool.false_eq_true, if_false, Nat.add_zero,
      hub, Option.bind_some]
    rw [if_pos (by omega)]
    simp only [Nat.add_sub_cancel, hgub, Option.bind_some]
    rw [if_pos (by omega), heo, Option.bind_some, if_pos (by omega), show psum cn t + e - psum cn t = e by omega]
    simp only [Local.nodeSize, Option.elim]
    have := hok.size t e ht he
    rw [disable_total] at this
    exact this

theorem gvo_ok {m : Mesh} {s : Space} (hv : s.Valid m) (hl : s.LeavesOk m) :
    ∃ g P W, update m s = some g ∧ g.fixed = (s.disableBlocking.localOrdering m).fixed ∧ GvoOk m s g P W := by
  cases hfix : (s.disableBlocking.localOrdering m).fixed with
  | true => exact gvo_fixed hv hl hfix
  | false => exact gvo_var hv hl hfix

theorem disable_dense {s : Space} {t e : Nat} (h : s.InnerDense t e) : s.disableBlocking.Dense t e := by
  cases s with
  | leaf fem cells => trivial
  | node b n child => exact ⟨fun h => by simp at h, h⟩

theorem disable_flat {s : Space} (h : s.InnerFlat) : s.disableBlocking.Flat := by
  cases s with
  | leaf fem cells => trivial
  | node b n child => exact ⟨rfl, h⟩

theorem innerFlat_dense {s : Space} (h : s.InnerFlat) (t e : Nat) : s.InnerDense t e := by
  cases s with
  | leaf fem cells => trivial
  | node b n child => exact fun c hc => flat_dense (h c hc) t e

end Verif.GridViewOrdering
