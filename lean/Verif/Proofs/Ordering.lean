import Verif.Spec.Ordering
import Verif.Proofs.PSum
import Mathlib.Data.List.Nodup
import Mathlib.Data.List.Range
import Mathlib.Data.List.Perm.Basic

namespace Verif.Orderings
open PSums

theorem partialSums_length (a : Nat) (l : List Nat) : (partialSums a l).length = l.length + 1 := by
  induction l generalizing a with
  | nil => rfl
  | cons x xs ih => simp [partialSums, ih]

theorem partialSums_get (a : Nat) (l : List Nat) (i : Nat) (hi : i ≤ l.length) :
    (partialSums a l)[i]? = some (a + (l.take i).sum) := by
  induction l generalizing a i with
  | nil =>
    have : i = 0 := by simpa using hi
    subst this; simp [partialSums]
  | cons x xs ih =>
    cases i with
    | zero => simp [partialSums]
    | succ i =>
      simp only [partialSums, List.getElem?_cons_succ]
      rw [ih (a + x) i (by simpa using hi)]
      simp; omega

theorem partialSums_last (a : Nat) (l : List Nat) : (partialSums a l).getLast?.getD 0 = a + l.sum := by
  rw [List.getLast?_eq_getElem?, partialSums_length]
  simp only [Nat.add_sub_cancel]
  rw [partialSums_get a l l.length (le_refl _)]
  simp

theorem take_map_range (f : Nat → Nat) (n c : Nat) (hc : c ≤ n) :
    ((List.range n).map f).take c = (List.range c).map f := by
  rw [← List.map_take, List.take_range, Nat.min_eq_left hc]

theorem partialSums_range (f : Nat → Nat) (n c : Nat) (hc : c ≤ n) :
    getOr (partialSums 0 ((List.range n).map f)) c = .ok (psum f c) := by
  unfold getOr
  rw [partialSums_get _ _ _ (by simpa using hc), take_map_range f n c hc]
  simp [psum]

theorem sizes_eq (sizes : List Nat) : sizes = (List.range sizes.length).map (fun i => sizes.getD i 0) := by
  apply List.ext_getElem?
  intro k
  by_cases hk : k < sizes.length
  · rw [List.getElem?_map, List.getElem?_range hk, List.getElem?_eq_getElem hk]
    simp [List.getD, List.getElem?_eq_getElem hk]
  · rw [List.getElem?_eq_none (by omega), List.getElem?_eq_none (by simp; omega)]

theorem mapM_ok {β : Type} (n : Nat) (f : Nat → Except Err β) (g : Nat → β)
    (h : ∀ i, i < n → f i = .ok (g i)) : (List.range n).mapM f = .ok ((List.range n).map g) := by
  have : ∀ l : List Nat, (∀ r ∈ l, r < n) → l.mapM f = .ok (l.map g) := by
    intro l hl
    induction l with
    | nil => rfl
    | cons a as ih =>
      rw [List.mapM_cons, h a (hl a (by simp)), ih (fun r hr => hl r (by simp [hr]))]
      rfl
  exact this _ (fun r hr => List.mem_range.1 hr)

/-- The stored data of a good tree. -/
structure UpdOk (o : OrdTree) (inf : Info) : Prop where
  upd : o.update = .ok inf
  bc : inf.blockCount = o.blocks
  sz : inf.size = o.dofs

theorem collect_ok {infos : List Info} (h : 0 < infos.length) :
    collect infos = .ok
      { size := (infos.map (·.size)).sum, blockCount := (infos.map (·.blockCount)).sum,
        sizeOffsets := partialSums 0 (infos.map (·.size)),
        blockOffsets := partialSums 0 (infos.map (·.blockCount)) } := by
  unfold collect
  rw [if_neg (by omega)]
  simp only [partialSums_last, Nat.zero_add]

theorem inter_total {sizes : List Nat} {n m : Nat} {b : Nat → Nat} (hn : 0 < n) (hl : sizes.length = n)
    (h : ∀ i, i < n → ∃ s, sizes[i]? = some s ∧ 0 < s ∧ b i = s * m) :
    0 < sizes.sum ∧ psum b n = sizes.sum * m := by
  have hs : ∀ i, i < n → sizes.getD i 0 > 0 ∧ b i = sizes.getD i 0 * m := by
    intro i hi
    obtain ⟨s, h1, h2, h3⟩ := h i hi
    simp [List.getD, h1, h2, h3]
  rw [sum_eq_psum, hl]
  exact ⟨psum_pos _ hn (hs 0 hn).1, psum_mul _ _ _ _ (fun i hi => (hs i hi).2)⟩

theorem update_ok (o : OrdTree) (hg : o.Good) : ∃ inf, UpdOk o inf := by
  induction o with
  | leaf blocks table => exact ⟨_, rfl, rfl, rfl⟩
  | lex blocked n child ih =>
    obtain ⟨hn, hc⟩ := hg
    have : ∀ i, ∃ inf, i < n → UpdOk (child i) inf := by
      intro i
      by_cases hi : i < n
      · obtain ⟨inf, h⟩ := ih i (hc i hi); exact ⟨inf, fun _ => h⟩
      · exact ⟨⟨0, 0, [], []⟩, fun h => absurd h hi⟩
    choose g hgi using this
    have h1 := mapM_ok n (fun i => (child i).update) g (fun i hi => (hgi i hi).upd)
    have h2 := collect_ok (infos := (List.range n).map g) (by simpa using hn)
    have hb : (((List.range n).map g).map (·.blockCount)).sum
        = ((List.range n).map fun i => (child i).blocks).sum := by
      rw [List.map_map]; exact psum_congr (fun i hi => (hgi i hi).bc)
    have hs : (((List.range n).map g).map (·.size)).sum
        = ((List.range n).map fun i => (child i).dofs).sum := by
      rw [List.map_map]; exact psum_congr (fun i hi => (hgi i hi).sz)
    cases blocked with
    | true =>
      refine ⟨_, by
        simp only [OrdTree.update, h1]
        simp only [bind, Except.bind, h2]
        rfl, ?_, ?_⟩
      · simp [OrdTree.blocks]
      · simpa [OrdTree.dofs] using hs
    | false =>
      refine ⟨_, by
        simp only [OrdTree.update, h1]
        simp only [bind, Except.bind, h2]
        rfl, ?_, ?_⟩
      · simpa [OrdTree.blocks] using hb
      · simpa [OrdTree.dofs] using hs
  | inter blocked sizes n child ih =>
    obtain ⟨hn, hl, ⟨m, hm⟩, hc⟩ := hg
    have : ∀ i, ∃ inf, i < n → UpdOk (child i) inf := by
      intro i
      by_cases hi : i < n
      · obtain ⟨inf, h⟩ := ih i (hc i hi); exact ⟨inf, fun _ => h⟩
      · exact ⟨⟨0, 0, [], []⟩, fun h => absurd h hi⟩
    choose g hgi using this
    have h1 := mapM_ok n (fun i => (child i).update) g (fun i hi => (hgi i hi).upd)
    have h2 := collect_ok (infos := (List.range n).map g) (by simpa using hn)
    have hb : (((List.range n).map g).map (·.blockCount)).sum
        = ((List.range n).map fun i => (child i).blocks).sum := by
      rw [List.map_map]; exact psum_congr (fun i hi => (hgi i hi).bc)
    have hs : (((List.range n).map g).map (·.size)).sum
        = ((List.range n).map fun i => (child i).dofs).sum := by
      rw [List.map_map]; exact psum_congr (fun i hi => (hgi i hi).sz)
    obtain ⟨ht, htot⟩ := inter_total hn hl hm
    have htot' : ((List.range n).map fun i => (child i).blocks).sum = sizes.sum * m := htot
    have hlen : ¬ (n + 1 ≠ (partialSums 0 sizes).length) := by rw [partialSums_length, hl]; simp
    cases blocked with
    | true =>
      refine ⟨{ size := (((List.range n).map g).map (·.size)).sum,
                blockCount := (((List.range n).map g).map (·.blockCount)).sum / sizes.sum,
                sizeOffsets := partialSums 0 (((List.range n).map g).map (·.size)),
                blockOffsets := partialSums 0 (((List.range n).map g).map (·.blockCount)) }, ?_, ?_, ?_⟩
      · simp only [OrdTree.update, if_neg hlen, h1]
        simp only [bind, Except.bind, h2, partialSums_last, Nat.zero_add, if_true]
        rw [if_neg (by omega), if_neg]
        rw [hb, htot']; simp
      · simp only [OrdTree.blocks, if_true, hb]
      · simpa [OrdTree.dofs] using hs
    | false =>
      refine ⟨{ size := (((List.range n).map g).map (·.size)).sum,
                blockCount := (((List.range n).map g).map (·.blockCount)).sum,
                sizeOffsets := partialSums 0 (((List.range n).map g).map (·.size)),
                blockOffsets := partialSums 0 (((List.range n).map g).map (·.blockCount)) }, ?_, ?_, ?_⟩
      · simp only [OrdTree.update, if_neg hlen, h1]
        simp only [bind, Except.bind, h2]
        rfl
      · simpa [OrdTree.blocks] using hb
      · simpa [OrdTree.dofs] using hs
  | chunked bs child ih =>
    obtain ⟨hbs, hdvd, hc⟩ := hg
    obtain ⟨inf, h⟩ := ih hc
    have h2 := collect_ok (infos := [inf]) (by simp)
    refine ⟨{ size := inf.size, blockCount := inf.blockCount / bs,
              sizeOffsets := partialSums 0 [inf.size], blockOffsets := partialSums 0 [inf.blockCount] }, ?_, ?_, ?_⟩
    · simp only [OrdTree.update, h.upd]
      simp only [bind, Except.bind, h2]
      rw [if_neg (by omega), if_neg]
      · simp
      · rw [h.bc]; simpa using Nat.mod_eq_zero_of_dvd hdvd
    · simp [OrdTree.blocks, h.bc]
    · simp [OrdTree.dofs, h.sz]
  | permuted before after child ih =>
    obtain ⟨hb, hp, hc⟩ := hg
    obtain ⟨inf, h⟩ := ih hc
    have h2 := collect_ok (infos := [inf]) (by simp)
    refine ⟨{ size := inf.size, blockCount := inf.blockCount,
              sizeOffsets := partialSums 0 [inf.size], blockOffsets := partialSums 0 [inf.blockCount] }, ?_, ?_, ?_⟩
    · simp only [OrdTree.update, h.upd]
      simp only [bind, Except.bind, h2]
      rw [if_neg]
      · simp
      · simp only [List.map_cons, List.map_nil, List.sum_cons, List.sum_nil, Nat.add_zero, h.bc]
        tauto
    · simp [OrdTree.blocks, h.bc]
    · simp [OrdTree.dofs, h.sz]

theorem children_infos {n : Nat} {child : Nat → OrdTree} (hc : ∀ i, i < n → (child i).Good) :
    ∃ g : Nat → Info, ∀ i, i < n → UpdOk (child i) (g i) := by
  have : ∀ i, ∃ inf, i < n → UpdOk (child i) inf := by
    intro i
    by_cases hi : i < n
    · obtain ⟨inf, h⟩ := update_ok (child i) (hc i hi); exact ⟨inf, fun _ => h⟩
    · exact ⟨⟨0, 0, [], []⟩, fun h => absurd h hi⟩
  choose g hgi using this
  exact ⟨g, hgi⟩

theorem update_lex_offsets {blocked : Bool} {n : Nat} {child : Nat → OrdTree}
    (hg : (OrdTree.lex blocked n child).Good) :
    ∃ inf, (OrdTree.lex blocked n child).update = .ok inf ∧
      inf.blockOffsets = partialSums 0 ((List.range n).map fun i => (child i).blocks) := by
  obtain ⟨hn, hc⟩ := hg
  obtain ⟨g, hgi⟩ := children_infos hc
  have h1 := mapM_ok n (fun i => (child i).update) g (fun i hi => (hgi i hi).upd)
  have h2 := collect_ok (infos := (List.range n).map g) (by simpa using hn)
  have hb : ((List.range n).map g).map (·.blockCount) = (List.range n).map fun i => (child i).blocks := by
    rw [List.map_map]
    apply List.map_congr_left
    intro i hi
    exact (hgi i (List.mem_range.1 hi)).bc
  refine ⟨_, by
        simp only [OrdTree.update, h1]
        simp only [bind, Except.bind, h2]
        rfl, ?_⟩
  cases blocked <;> simp [hb]

theorem mapIndex_lex {blocked : Bool} {n : Nat} {child : Nat → OrdTree}
    (hg : (OrdTree.lex blocked n child).Good) {c : Nat} (hcn : c < n) {path : List Nat} {d b : Nat}
    {r : List Nat} (h : (child c).mapIndex path d = .ok (b :: r)) :
    (OrdTree.lex blocked n child).mapIndex (c :: path) d =
      .ok (if blocked then c :: b :: r else (b + psum (fun i => (child i).blocks) c) :: r) := by
  obtain ⟨inf, h1, h2⟩ := update_lex_offsets hg
  simp only [OrdTree.mapIndex, h1, h]
  simp only [bind, Except.bind]
  rw [if_neg (by omega), h2, partialSums_range _ n c (by omega)]
  cases blocked <;> rfl

theorem mapIndex_inter {blocked : Bool} {sizes : List Nat} {n : Nat} {child : Nat → OrdTree}
    (hg : (OrdTree.inter blocked sizes n child).Good) {c : Nat} (hcn : c < n) {path : List Nat} {d b : Nat}
    {r : List Nat} (h : (child c).mapIndex path d = .ok (b :: r)) :
    (OrdTree.inter blocked sizes n child).mapIndex (c :: path) d =
      .ok (if blocked then
          b / sizes.getD c 0 :: (psum (fun i => sizes.getD i 0) c + b % sizes.getD c 0) :: r
        else (b / sizes.getD c 0 * sizes.sum + (psum (fun i => sizes.getD i 0) c + b % sizes.getD c 0)) :: r) := by
  obtain ⟨inf, hi⟩ := update_ok _ hg
  obtain ⟨hn, hl, ⟨m, hm⟩, hc⟩ := hg
  obtain ⟨s, hs1, hs2, hs3⟩ := hm c hcn
  have hs : sizes.getD c 0 = s := by simp [List.getD, hs1]
  have e : sizes = (List.range n).map (fun i => sizes.getD i 0) := by
    conv_lhs => rw [sizes_eq sizes, hl]
  have g1 : getOr (partialSums 0 sizes) c = .ok (psum (fun i => sizes.getD i 0) c) := by
    conv_lhs => rw [e]
    exact partialSums_range _ n c (by omega)
  have g2 : getOr (partialSums 0 sizes) (c + 1) = .ok (psum (fun i => sizes.getD i 0) (c + 1)) := by
    conv_lhs => rw [e]
    exact partialSums_range _ n (c + 1) (by omega)
  simp only [OrdTree.mapIndex, hi.upd, h]
  simp only [bind, Except.bind]
  rw [if_neg (by omega), g1, g2]
  simp only
  rw [psum_succ, Nat.add_sub_cancel_left, hs, if_neg (by omega), partialSums_last, Nat.zero_add]
  cases blocked <;> rfl

theorem mapIndex_chunked {bs : Nat} {child : OrdTree} (hg : (OrdTree.chunked bs child).Good)
    {path : List Nat} {d b : Nat} {r : List Nat} (h : child.mapIndex path d = .ok (b :: r)) :
    (OrdTree.chunked bs child).mapIndex path d = .ok (b / bs :: b % bs :: r) := by
  obtain ⟨inf, hi⟩ := update_ok _ hg
  simp only [OrdTree.mapIndex, hi.upd, h]
  rfl

/-- The permutation in effect after `update()`. -/
def permFn (after : Option (List Nat)) (b : Nat) : Nat :=
  match after with
  | some p => p.getD b 0
  | none => b

theorem permFn_spec {before : List Nat} {after : Option (List Nat)} {child : OrdTree}
    (hg : (OrdTree.permuted before after child).Good) :
    (∀ b, b < child.blocks → permFn after b < child.blocks) ∧
    (∀ b b', b < child.blocks → b' < child.blocks → permFn after b = permFn after b' → b = b') ∧
    (∀ k, k < child.blocks → ∃ b, b < child.blocks ∧ permFn after b = k) := by
  obtain ⟨_, hp, _⟩ := hg
  cases after with
  | none => exact ⟨fun b h => h, fun b b' _ _ h => h, fun k hk => ⟨k, hk, rfl⟩⟩
  | some p =>
    have hp := hp p rfl
    have hl : p.length = child.blocks := by rw [hp.length_eq]; simp
    have hget : ∀ b (hb : b < child.blocks), permFn (some p) b = p[b]'(by omega) := by
      intro b hb
      simp [permFn, List.getD, List.getElem?_eq_getElem (show b < p.length by omega)]
    refine ⟨?_, ?_, ?_⟩
    · intro b hb
      rw [hget b hb]
      have := hp.subset (List.getElem_mem (show b < p.length by omega))
      exact List.mem_range.1 this
    · intro b b' hb hb' h
      rw [hget b hb, hget b' hb'] at h
      have hn : p.Nodup := hp.nodup_iff.2 List.nodup_range
      exact (hn.getElem_inj_iff).1 h
    · intro k hk
      have : k ∈ p := hp.symm.subset (List.mem_range.2 hk)
      obtain ⟨b, hb, he⟩ := List.getElem_of_mem this
      refine ⟨b, by omega, ?_⟩
      rw [hget b (by omega)]; exact he

theorem mapIndex_permuted {before : List Nat} {after : Option (List Nat)} {child : OrdTree}
    (hg : (OrdTree.permuted before after child).Good)
    {path : List Nat} {d b : Nat} {r : List Nat} (h : child.mapIndex path d = .ok (b :: r))
    (hb : b < child.blocks) :
    (OrdTree.permuted before after child).mapIndex path d = .ok (permFn after b :: r) := by
  obtain ⟨inf, hi⟩ := update_ok _ hg
  simp only [OrdTree.mapIndex, hi.upd, h]
  simp only [bind, Except.bind]
  have hbc : inf.blockCount = child.blocks := hi.bc
  cases after with
  | none => simp [effectivePerm, getOr, hbc, hb, permFn]
  | some p =>
    have hl : p.length = child.blocks := by rw [(hg.2.1 p rfl).length_eq]; simp
    simp [effectivePerm, getOr, List.getElem?_eq_getElem (show b < p.length by omega), permFn, List.getD]

theorem div_mod_lt {b s m : Nat} (hb : b < s * m) : b / s < m :=
  Nat.div_lt_of_lt_mul hb

theorem mapIndex_ok (o : OrdTree) (hg : o.Good) (path : List Nat) (d : Nat) (hd : o.IsDof path d) :
    ∃ b r, o.mapIndex path d = .ok (b :: r) ∧ b < o.blocks := by
  induction o generalizing path with
  | leaf blocks table =>
    cases path with
    | nil =>
      have hd' : d < table.length := hd
      obtain ⟨b, r, h1, h2⟩ := hg.2 table[d] (List.getElem_mem hd')
      refine ⟨b, r, ?_, h2⟩
      simp [OrdTree.mapIndex, List.getElem?_eq_getElem hd', h1]
    | cons => simp [OrdTree.IsDof] at hd
  | lex blocked n child ih =>
    cases path with
    | nil => simp [OrdTree.IsDof] at hd
    | cons c path =>
      obtain ⟨hcn, hd⟩ := hd
      obtain ⟨b, r, h1, h2⟩ := ih c (hg.2 c hcn) path hd
      have := mapIndex_lex hg hcn h1
      cases blocked with
      | true => exact ⟨c, b :: r, by simpa using this, by simpa [OrdTree.blocks] using hcn⟩
      | false =>
        refine ⟨_, r, by simpa using this, ?_⟩
        have := psum_add_lt (fun i => (child i).blocks) hcn h2
        simp only [OrdTree.blocks, Bool.false_eq_true, if_false]
        simp only [psum] at this ⊢
        omega
  | inter blocked sizes n child ih =>
    cases path with
    | nil => simp [OrdTree.IsDof] at hd
    | cons c path =>
      obtain ⟨hcn, hd⟩ := hd
      have hg' := hg
      obtain ⟨hn, hl, ⟨m, hm⟩, hc⟩ := hg'
      obtain ⟨b, r, h1, h2⟩ := ih c (hc c hcn) path hd
      have hmi := mapIndex_inter hg hcn h1
      obtain ⟨s, hs1, hs2, hs3⟩ := hm c hcn
      have hs : sizes.getD c 0 = s := by simp [List.getD, hs1]
      obtain ⟨ht, htot⟩ := inter_total hn hl hm
      have hq : b / s < m := div_mod_lt (by rw [← hs3]; exact h2)
      have hoff : psum (fun i => sizes.getD i 0) c + b % s < sizes.sum := by
        rw [sum_eq_psum, hl]
        exact psum_add_lt _ hcn (by rw [hs]; exact Nat.mod_lt _ hs2)
      rw [hs] at hmi
      cases blocked with
      | true =>
        refine ⟨_, _, by simpa using hmi, ?_⟩
        simp only [OrdTree.blocks, if_true]
        change _ < psum _ n / _
        rw [htot, Nat.mul_div_cancel_left _ ht]; exact hq
      | false =>
        refine ⟨_, _, by simpa using hmi, ?_⟩
        simp only [OrdTree.blocks, Bool.false_eq_true, if_false]
        change _ < psum _ n
        rw [htot]
        calc b / s * sizes.sum + (psum (fun i => sizes.getD i 0) c + b % s)
            < b / s * sizes.sum + sizes.sum := by omega
          _ = sizes.sum * (b / s + 1) := by rw [Nat.mul_add, Nat.mul_one, Nat.mul_comm]
          _ ≤ sizes.sum * m := Nat.mul_le_mul_left _ hq
  | chunked bs child ih =>
    obtain ⟨b, r, h1, h2⟩ := ih hg.2.2 path hd
    refine ⟨_, _, mapIndex_chunked hg h1, ?_⟩
    obtain ⟨hbs, ⟨q, hq⟩, _⟩ := hg
    simp only [OrdTree.blocks, hq, Nat.mul_div_cancel_left _ hbs]
    exact div_mod_lt (by rw [← hq]; exact h2)
  | permuted before after child ih =>
    obtain ⟨b, r, h1, h2⟩ := ih hg.2.2 path hd
    exact ⟨_, _, mapIndex_permuted hg h1 h2, (permFn_spec hg).1 b h2⟩

theorem split_block {t b off b' off' : Nat} (h : off < t) (h' : off' < t)
    (he : b * t + off = b' * t + off') : b = b' ∧ off = off' := by
  have ht : 0 < t := by omega
  have h1 : (b * t + off) / t = b := by
    rw [Nat.mul_comm, Nat.mul_add_div ht, Nat.div_eq_of_lt h]; omega
  have h2 : (b' * t + off') / t = b' := by
    rw [Nat.mul_comm, Nat.mul_add_div ht, Nat.div_eq_of_lt h']; omega
  have : b = b' := by rw [← h1, ← h2, he]
  subst this
  exact ⟨rfl, by omega⟩

theorem div_mod_inj {b b' s : Nat} (h1 : b / s = b' / s) (h2 : b % s = b' % s) : b = b' := by
  rw [← Nat.div_add_mod b s, ← Nat.div_add_mod b' s, h1, h2]

theorem mapIndex_inj (o : OrdTree) (hg : o.Good) (path path' : List Nat) (d d' : Nat)
    (hd : o.IsDof path d) (hd' : o.IsDof path' d')
    (he : o.mapIndex path d = o.mapIndex path' d') : path = path' ∧ d = d' := by
  induction o generalizing path path' with
  | leaf blocks table =>
    cases path with
    | nil =>
      cases path' with
      | nil =>
        have h1 : d < table.length := hd
        have h2 : d' < table.length := hd'
        simp [OrdTree.mapIndex, List.getElem?_eq_getElem h1, List.getElem?_eq_getElem h2] at he
        exact ⟨rfl, (hg.1.getElem_inj_iff).1 he⟩
      | cons => simp [OrdTree.IsDof] at hd'
    | cons => simp [OrdTree.IsDof] at hd
  | lex blocked n child ih =>
    cases path with
    | nil => simp [OrdTree.IsDof] at hd
    | cons c path =>
    cases path' with
    | nil => simp [OrdTree.IsDof] at hd'
    | cons c' path' =>
      obtain ⟨hcn, hd⟩ := hd
      obtain ⟨hcn', hd'⟩ := hd'
      obtain ⟨b, r, h1, h2⟩ := mapIndex_ok _ (hg.2 c hcn) path d hd
      obtain ⟨b', r', h1', h2'⟩ := mapIndex_ok _ (hg.2 c' hcn') path' d' hd'
      rw [mapIndex_lex hg hcn h1, mapIndex_lex hg hcn' h1'] at he
      have key : c = c' ∧ b = b' ∧ r = r' := by
        cases blocked with
        | true => simpa using he
        | false =>
          simp at he
          obtain ⟨q1, q2⟩ := psum_inj (fun i => (child i).blocks) h2 h2' (by omega)
          exact ⟨q1, q2, he.2⟩
      obtain ⟨rfl, rfl, rfl⟩ := key
      obtain ⟨q1, q2⟩ := ih c (hg.2 c hcn) path path' hd hd' (h1.trans h1'.symm)
      exact ⟨by rw [q1], q2⟩
  | inter blocked sizes n child ih =>
    cases path with
    | nil => simp [OrdTree.IsDof] at hd
    | cons c path =>
    cases path' with
    | nil => simp [OrdTree.IsDof] at hd'
    | cons c' path' =>
      obtain ⟨hcn, hd⟩ := hd
      obtain ⟨hcn', hd'⟩ := hd'
      have hg' := hg
      obtain ⟨hn, hl, ⟨m, hm⟩, hc⟩ := hg'
      obtain ⟨b, r, h1, h2⟩ := mapIndex_ok _ (hc c hcn) path d hd
      obtain ⟨b', r', h1', h2'⟩ := mapIndex_ok _ (hc c' hcn') path' d' hd'
      rw [mapIndex_inter hg hcn h1, mapIndex_inter hg hcn' h1'] at he
      obtain ⟨s, hs1, hs2, hs3⟩ := hm c hcn
      have hs : sizes.getD c 0 = s := by simp [List.getD, hs1]
      obtain ⟨s', hs1', hs2', hs3'⟩ := hm c' hcn'
      have hs' : sizes.getD c' 0 = s' := by simp [List.getD, hs1']
      rw [hs, hs'] at he
      have key : b / s = b' / s' ∧
          psum (fun i => sizes.getD i 0) c + b % s = psum (fun i => sizes.getD i 0) c' + b' % s' ∧ r = r' := by
        cases blocked with
        | true => simpa using he
        | false =>
          simp at he
          have o1 : psum (fun i => sizes.getD i 0) c + b % s < sizes.sum := by
            rw [sum_eq_psum, hl]
            exact psum_add_lt _ hcn (by rw [hs]; exact Nat.mod_lt _ hs2)
          have o2 : psum (fun i => sizes.getD i 0) c' + b' % s' < sizes.sum := by
            rw [sum_eq_psum, hl]
            exact psum_add_lt _ hcn' (by rw [hs']; exact Nat.mod_lt _ hs2')
          obtain ⟨q1, q2⟩ := split_block o1 o2 he.1
          exact ⟨q1, q2, he.2⟩
      obtain ⟨k1, k2, k3⟩ := key
      obtain ⟨q1, q2⟩ := psum_inj (fun i => sizes.getD i 0)
        (by rw [hs]; exact Nat.mod_lt _ hs2) (by rw [hs']; exact Nat.mod_lt _ hs2') k2
      subst q1
      have : s = s' := by rw [← hs, ← hs']
      subst this
      have hbb : b = b' := div_mod_inj k1 q2
      subst hbb; subst k3
      obtain ⟨q1, q2⟩ := ih c (hc c hcn) path path' hd hd' (h1.trans h1'.symm)
      exact ⟨by rw [q1], q2⟩
  | chunked bs child ih =>
    obtain ⟨b, r, h1, h2⟩ := mapIndex_ok _ hg.2.2 path d hd
    obtain ⟨b', r', h1', h2'⟩ := mapIndex_ok _ hg.2.2 path' d' hd'
    rw [mapIndex_chunked hg h1, mapIndex_chunked hg h1'] at he
    simp at he
    have : b = b' := div_mod_inj he.1 he.2.1
    subst this
    have := he.2.2
    subst this
    exact ih hg.2.2 path path' hd hd' (h1.trans h1'.symm)
  | permuted before after child ih =>
    obtain ⟨b, r, h1, h2⟩ := mapIndex_ok _ hg.2.2 path d hd
    obtain ⟨b', r', h1', h2'⟩ := mapIndex_ok _ hg.2.2 path' d' hd'
    rw [mapIndex_permuted hg h1 h2, mapIndex_permuted hg h1' h2'] at he
    simp at he
    have : b = b' := (permFn_spec hg).2.1 b b' h2 h2' he.1
    subst this
    have := he.2
    subst this
    exact ih hg.2.2 path path' hd hd' (h1.trans h1'.symm)

theorem flat_surj (o : OrdTree) (hg : o.Good) (hf : o.Flat) :
    (∀ path d, o.IsDof path d → ∃ k, o.mapIndex path d = .ok [k]) ∧
    (∀ k, k < o.blocks → ∃ path d, o.IsDof path d ∧ o.mapIndex path d = .ok [k]) ∧
    o.blocks = o.dofs := by
  induction o with
  | leaf blocks table =>
    have hf : table = (List.range blocks).map fun k => [k] := hf
    subst hf
    refine ⟨?_, ?_, by simp [OrdTree.blocks, OrdTree.dofs]⟩
    · intro path d hd
      cases path with
      | nil =>
        have hd : d < blocks := by simpa [OrdTree.IsDof] using hd
        exact ⟨d, by simp [OrdTree.mapIndex, hd]⟩
      | cons => simp [OrdTree.IsDof] at hd
    · intro k hk
      have hk : k < blocks := hk
      exact ⟨[], k, by simpa [OrdTree.IsDof] using hk, by simp [OrdTree.mapIndex, hk]⟩
  | lex blocked n child ih =>
    obtain ⟨rfl, hf⟩ := hf
    refine ⟨?_, ?_, ?_⟩
    · intro path d hd
      cases path with
      | nil => simp [OrdTree.IsDof] at hd
      | cons c path =>
        obtain ⟨hcn, hd⟩ := hd
        obtain ⟨k, hk⟩ := (ih c (hg.2 c hcn) (hf c hcn)).1 path d hd
        exact ⟨_, by simpa using mapIndex_lex hg hcn hk⟩
    · intro k hk
      obtain ⟨c, j, hcn, hj, rfl⟩ := psum_exists (fun i => (child i).blocks) n k (by simpa [OrdTree.blocks, psum] using hk)
      obtain ⟨path, d, hd, hm⟩ := (ih c (hg.2 c hcn) (hf c hcn)).2.1 j hj
      refine ⟨c :: path, d, ⟨hcn, hd⟩, ?_⟩
      rw [mapIndex_lex hg hcn hm]
      simp [Nat.add_comm]
    · simp only [OrdTree.blocks, OrdTree.dofs, Bool.false_eq_true, if_false]
      exact psum_congr (fun i hi => (ih i (hg.2 i hi) (hf i hi)).2.2)
  | inter blocked sizes n child ih =>
    obtain ⟨rfl, hf⟩ := hf
    have hg' := hg
    obtain ⟨hn, hl, ⟨m, hm⟩, hc⟩ := hg'
    refine ⟨?_, ?_, ?_⟩
    · intro path d hd
      cases path with
      | nil => simp [OrdTree.IsDof] at hd
      | cons c path =>
        obtain ⟨hcn, hd⟩ := hd
        obtain ⟨k, hk⟩ := (ih c (hc c hcn) (hf c hcn)).1 path d hd
        exact ⟨_, by simpa using mapIndex_inter hg hcn hk⟩
    · intro k hk
      obtain ⟨ht, htot⟩ := inter_total hn hl hm
      have hk : k < sizes.sum * m := by
        rw [← htot]; simpa [OrdTree.blocks, psum] using hk
      obtain ⟨c, j, hcn, hj, hko⟩ := psum_exists (fun i => sizes.getD i 0) n (k % sizes.sum)
        (by have := Nat.mod_lt k ht
            rwa [sum_eq_psum sizes, hl] at this ⊢)
      obtain ⟨s, hs1, hs2, hs3⟩ := hm c hcn
      have hs : sizes.getD c 0 = s := by simp [List.getD, hs1]
      simp only [hs] at hj
      have hkq : k / sizes.sum < m := div_mod_lt hk
      have hb : s * (k / sizes.sum) + j < (child c).blocks := by
        rw [hs3]
        calc s * (k / sizes.sum) + j < s * (k / sizes.sum) + s := by omega
          _ = s * (k / sizes.sum + 1) := by rw [Nat.mul_add, Nat.mul_one]
          _ ≤ s * m := Nat.mul_le_mul_left _ hkq
      obtain ⟨path, d, hd, hmi⟩ := (ih c (hc c hcn) (hf c hcn)).2.1 _ hb
      refine ⟨c :: path, d, ⟨hcn, hd⟩, ?_⟩
      rw [mapIndex_inter hg hcn hmi, hs]
      have e1 : (s * (k / sizes.sum) + j) / s = k / sizes.sum := by
        rw [Nat.mul_add_div hs2, Nat.div_eq_of_lt hj]; rfl
      have e2 : (s * (k / sizes.sum) + j) % s = j := by
        rw [Nat.mul_add_mod, Nat.mod_eq_of_lt hj]
      simp only [Bool.false_eq_true, if_false, e1, e2, ← hko]
      rw [Nat.mul_comm, Nat.div_add_mod]
    · simp only [OrdTree.blocks, OrdTree.dofs, Bool.false_eq_true, if_false]
      exact psum_congr (fun i hi => (ih i (hc i hi) (hf i hi)).2.2)
  | chunked bs child ih => exact absurd hf (by simp [OrdTree.Flat])
  | permuted before after child ih =>
    obtain ⟨i1, i2, i3⟩ := ih hg.2.2 hf
    refine ⟨?_, ?_, by simpa [OrdTree.blocks, OrdTree.dofs] using i3⟩
    · intro path d hd
      obtain ⟨b, r, h1, h2⟩ := mapIndex_ok _ hg.2.2 path d hd
      obtain ⟨k, hk⟩ := i1 path d hd
      rw [h1] at hk; simp at hk
      obtain ⟨rfl, rfl⟩ := hk
      exact ⟨_, mapIndex_permuted hg h1 h2⟩
    · intro k hk
      obtain ⟨b, hb, hbk⟩ := (permFn_spec hg).2.2 k hk
      obtain ⟨path, d, hd, hm⟩ := i2 b hb
      exact ⟨path, d, hd, by rw [mapIndex_permuted hg hm hb, hbk]⟩

end Verif.Orderings
