import Verif.Proofs.OrderingSize
/-!
Properties C06 - C11: orderings of tree-structured function spaces.
See Verif/Spec/Ordering.lean for `IsDof`, `blocks`, `dofs`, `Good`, `Plausible`, `Flat`, `Occurs`.
-/
namespace Verif
open Orderings PSums

/-! ### Example trees -/

/-- A scalar leaf with `k` DOFs. -/
def flatLeaf (k : Nat) : OrdTree := .leaf k ((List.range k).map fun i => [i])

theorem flatLeaf_good (k : Nat) : (flatLeaf k).Good := by
  refine ⟨?_, ?_⟩
  · exact List.nodup_range.map (fun a b h => by simpa using h)
  · intro ci h
    obtain ⟨i, hi, rfl⟩ := List.mem_map.1 h
    exact ⟨i, [], rfl, List.mem_range.1 hi⟩

/-- Taylor-Hood like space: velocity = two components of 4 DOFs interleaved with block size 1, pressure with
3 DOFs, velocity and pressure blocked lexicographically. -/
def taylorHood (blockedV blockedTop : Bool) : OrdTree :=
  .lex blockedTop 2 fun i => if i = 0 then .inter blockedV [1, 1] 2 fun _ => flatLeaf 4 else flatLeaf 3

theorem taylorHood_good (a b : Bool) : (taylorHood a b).Good := by
  refine ⟨by decide, ?_⟩
  intro i hi
  by_cases h : i = 0
  · subst h
    refine ⟨by decide, rfl, ⟨4, ?_⟩, fun i _ => flatLeaf_good 4⟩
    intro j hj
    refine ⟨1, ?_, by decide, rfl⟩
    have : j = 0 ∨ j = 1 := by omega
    rcases this with rfl | rfl <;> rfl
  · simp only [h, if_false]; exact flatLeaf_good 3

/-! ### C06 -/

/-- Container-blocked interleaving of a child with 3 blocks and a child with 1 block, merged in
blocks (1,1). `update()` accepts it because 3+1 is divisible by 2. -/
def unbalanced : OrdTree := .inter true [1, 1] 2 fun i => if i = 0 then flatLeaf 3 else flatLeaf 1

/-- The same with one DOF per child. -/
def balanced : OrdTree := .inter true [1, 1] 2 fun _ => flatLeaf 1

/-- Both under an unblocked lexicographic parent. -/
def collision : OrdTree := .lex false 2 fun i => if i = 0 then unbalanced else balanced

theorem collision_plausible : collision.Plausible := by
  refine ⟨by decide, ?_⟩
  intro i hi
  have fl : ∀ k, (flatLeaf k).Plausible := fun k => flatLeaf_good k
  by_cases h : i = 0
  · simp only [h, if_true]
    refine ⟨by decide, by decide, ?_⟩
    intro j hj
    by_cases h' : j = 0
    · simp only [h', if_true]; exact fl 3
    · simp only [h', if_false]; exact fl 1
  · simp only [h, if_false]
    exact ⟨by decide, by decide, fun j _ => fl 1⟩

/-- **C06 is false for the code as it is**: there is a tree of orderings whose `update()` succeeds and
which maps two DOFs to the same container index (DOF 2 of the first child and DOF 0 of the third
leaf are both mapped to (0,2)). -/
theorem C06_no_two_dofs_share_an_index_false :
    ¬ ∀ o : OrdTree, o.Plausible → (∃ inf, o.update = .ok inf) → o.Injective := by
  intro h
  have hu : ∃ inf, collision.update = .ok inf := ⟨⟨6, 3, [0, 4, 6], [0, 2, 3]⟩, by decide +kernel⟩
  have := h collision collision_plausible hu [0, 0] 2 [1, 0] 0 [2, 0]
    (by simp [collision, unbalanced, flatLeaf, OrdTree.IsDof]) (by simp [collision, balanced, flatLeaf, OrdTree.IsDof])
    (by decide +kernel) (by decide +kernel)
  simp at this

/-- **C06 (partial)**: for every tree of lexicographic, interleaved, chunked and permuted orderings,
blocked or not, in which interleaved children are balanced, `update()` succeeds, `size()` is the number of
DOFs, `mapIndex` is defined for every DOF with a block number below `blockCount()`, and different DOFs get different container indices. Missing: unbalanced interleaving,
for which the claim is false (see above). -/
theorem C06_no_two_dofs_share_an_index_partial (o : OrdTree) (hg : o.Good) :
    (∃ inf, o.update = .ok inf ∧ inf.size = o.dofs ∧
      ∀ path d, o.IsDof path d → ∃ b r, o.mapIndex path d = .ok (b :: r) ∧ b < inf.blockCount) ∧
    o.Injective := by
  refine ⟨?_, ?_⟩
  · obtain ⟨inf, h⟩ := update_ok o hg
    refine ⟨inf, h.upd, h.sz, ?_⟩
    intro path d hd
    rw [h.bc]
    exact mapIndex_ok o hg path d hd
  · intro path d path' d' ci h1 h2 h3 h4
    exact mapIndex_inj o hg path path' d d' h1 h2 (h3.trans h4.symm)

example : (taylorHood true true).Good ∧ (taylorHood true true).IsDof [0, 1] 2 ∧
    (taylorHood true true).mapIndex [0, 1] 2 = .ok [0, 2, 1] :=
  ⟨taylorHood_good _ _, by simp [taylorHood, flatLeaf, OrdTree.IsDof], by decide +kernel⟩

/-! ### C07 -/

/-- **C07**: for a tree without blocking, every DOF is mapped to a single number below
`size()` = `blockCount()` = number of DOFs, and every number below `size()` is the index of exactly
one DOF. -/
theorem C07_unblocked_is_a_bijection (o : OrdTree) (hg : o.Good) (hf : o.Flat) :
    ∃ inf, o.update = .ok inf ∧ inf.size = o.dofs ∧ inf.blockCount = inf.size ∧
      (∀ path d, o.IsDof path d → ∃ k, k < inf.size ∧ o.mapIndex path d = .ok [k]) ∧
      (∀ k, k < inf.size → ∃ path d, (o.IsDof path d ∧ o.mapIndex path d = .ok [k]) ∧
        ∀ path' d', o.IsDof path' d' → o.mapIndex path' d' = .ok [k] → path' = path ∧ d' = d) := by
  obtain ⟨inf, h⟩ := update_ok o hg
  obtain ⟨f1, f2, f3⟩ := flat_surj o hg hf
  refine ⟨inf, h.upd, h.sz, by rw [h.bc, h.sz, f3], ?_, ?_⟩
  · intro path d hd
    obtain ⟨b, r, h1, h2⟩ := mapIndex_ok o hg path d hd
    obtain ⟨k, hk⟩ := f1 path d hd
    rw [h1] at hk; simp at hk
    obtain ⟨rfl, rfl⟩ := hk
    exact ⟨b, by rw [h.sz, ← f3]; exact h2, h1⟩
  · intro k hk
    rw [h.sz, ← f3] at hk
    obtain ⟨path, d, hd, hm⟩ := f2 k hk
    refine ⟨path, d, ⟨hd, hm⟩, ?_⟩
    intro path' d' hd' hm'
    exact mapIndex_inj o hg path' path d' d hd' hd (hm'.trans hm.symm)

example : (taylorHood false false).Good ∧ (taylorHood false false).Flat ∧ (taylorHood false false).dofs = 11 := by
  refine ⟨taylorHood_good _ _, ⟨rfl, ?_⟩, by decide +kernel⟩
  intro i hi
  by_cases h : i = 0
  · simp only [h, if_true]; exact ⟨rfl, fun i _ => rfl⟩
  · simp only [h, if_false]; exact rfl

/-! ### C08 -/

/-- Every block of an interleaved ordering is complete: all positions below the block size are used. -/
def BlocksComplete (o : OrdTree) (inf : Info) (blockSize : Nat) : Prop :=
  ∀ block off, block < inf.blockCount → off < blockSize → o.Occurs [block, off]

/-- **C08 is false for the code as it is**: `update()` accepts container-blocked interleavings in which a
block is incomplete (3 blocks of the first child, 1 block of the second, merged as (1,1)). -/
theorem C08_accepted_interleavings_are_complete_false :
    ¬ ∀ (sizes : List Nat) (n : Nat) (child : Nat → OrdTree) (inf : Info),
        (OrdTree.inter true sizes n child).Plausible → (∀ i, i < n → (child i).Onto) →
        (OrdTree.inter true sizes n child).update = .ok inf →
        BlocksComplete (OrdTree.inter true sizes n child) inf sizes.sum := by
  intro h
  have honto : ∀ k, (flatLeaf k).Onto := by
    intro k j hj
    exact ⟨[], j, [], by simpa [flatLeaf, OrdTree.IsDof, OrdTree.blocks] using hj,
      by simp [flatLeaf, OrdTree.mapIndex, show j < k from hj]⟩
  have := h [1, 1] 2 (fun i => if i = 0 then flatLeaf 3 else flatLeaf 1) ⟨4, 2, [0, 3, 4], [0, 3, 4]⟩
    (by
      have := collision_plausible.2 0 (by decide)
      simpa [unbalanced] using this)
    (by intro i _; by_cases hi : i = 0 <;> simp only [hi, if_true, if_false] <;> exact honto _)
    (by decide +kernel) 1 1 (by decide) (by decide)
  obtain ⟨path, d, rest, hd, hm⟩ := this
  cases path with
  | nil => simp [OrdTree.IsDof] at hd
  | cons c path =>
    obtain ⟨hc, hd⟩ := hd
    have hc : c = 0 ∨ c = 1 := by omega
    rcases hc with rfl | rfl
    · cases path with
      | nil =>
        simp [flatLeaf, OrdTree.IsDof] at hd
        have hd : d = 0 ∨ d = 1 ∨ d = 2 := by omega
        rcases hd with rfl | rfl | rfl
        · rw [show (OrdTree.inter true [1, 1] 2 fun i => if i = 0 then flatLeaf 3 else flatLeaf 1).mapIndex [0] 0
            = .ok [0, 0] from by decide +kernel] at hm
          simp at hm
        · rw [show (OrdTree.inter true [1, 1] 2 fun i => if i = 0 then flatLeaf 3 else flatLeaf 1).mapIndex [0] 1
            = .ok [1, 0] from by decide +kernel] at hm
          simp at hm
        · rw [show (OrdTree.inter true [1, 1] 2 fun i => if i = 0 then flatLeaf 3 else flatLeaf 1).mapIndex [0] 2
            = .ok [2, 0] from by decide +kernel] at hm
          simp at hm
      | cons => simp [flatLeaf, OrdTree.IsDof] at hd
    · cases path with
      | nil =>
        simp [flatLeaf, OrdTree.IsDof] at hd
        subst hd
        rw [show (OrdTree.inter true [1, 1] 2 fun i => if i = 0 then flatLeaf 3 else flatLeaf 1).mapIndex [1] 0
            = .ok [0, 1] from by decide +kernel] at hm
        simp at hm
      | cons => simp [flatLeaf, OrdTree.IsDof] at hd

/-- **C08 (partial)**: if the children can be updated and the block sizes are positive, `update()` of a
container-blocked interleaved ordering fails with OrderingStructureError exactly if the number of block
sizes is wrong or their sum does not divide the number of child blocks; and if all children are
balanced (same number `m` of merged blocks), it succeeds and all blocks are complete.
Missing: the check is not per child, see `C08_accepted_interleavings_are_complete_false`. -/
theorem C08_interleaving_rejected_iff_not_divisible_partial (sizes : List Nat) (n : Nat)
    (child : Nat → OrdTree) (hn : 0 < n) (hg : ∀ i, i < n → (child i).Good) (hpos : 0 < sizes.sum) :
    ((OrdTree.inter true sizes n child).update = .error .structure ↔
      sizes.length ≠ n ∨ ¬ sizes.sum ∣ ((List.range n).map fun i => (child i).blocks).sum) ∧
    ((OrdTree.inter true sizes n child).Good → (∀ i, i < n → (child i).Onto) →
      ∃ inf, (OrdTree.inter true sizes n child).update = .ok inf ∧
        BlocksComplete (OrdTree.inter true sizes n child) inf sizes.sum) := by
  refine ⟨?_, ?_⟩
  · obtain ⟨g, hgi⟩ := children_infos hg
    have h1 := mapM_ok n (fun i => (child i).update) g (fun i hi => (hgi i hi).upd)
    have h2 := collect_ok (infos := (List.range n).map g) (by simpa using hn)
    have hb : ((List.range n).map g).map (·.blockCount) = (List.range n).map fun i => (child i).blocks := by
      rw [List.map_map]
      apply List.map_congr_left
      intro i hi
      exact (hgi i (List.mem_range.1 hi)).bc
    rw [hb] at h2
    simp only [OrdTree.update]
    rw [partialSums_length, partialSums_last, Nat.zero_add]
    by_cases hl : sizes.length = n
    · rw [if_neg (by omega)]
      simp only [bind, Except.bind, h1, h2, if_true]
      rw [if_neg (by omega)]
      by_cases hdv : sizes.sum ∣ ((List.range n).map fun i => (child i).blocks).sum
      · rw [if_neg (by rw [Nat.mod_eq_zero_of_dvd hdv]; simp)]
        simp [hl, hdv]
      · rw [if_pos (fun h => hdv (Nat.dvd_of_mod_eq_zero h))]
        simp [hl, hdv]
    · rw [if_pos (by omega)]
      simp [bind, Except.bind, hl]
  · intro hgi honto
    obtain ⟨inf, hi⟩ := update_ok _ hgi
    refine ⟨inf, hi.upd, ?_⟩
    intro block off hblk hoff
    have hg' := hgi
    obtain ⟨_, hl, ⟨m, hm⟩, hc⟩ := hg'
    obtain ⟨ht, htot⟩ := inter_total hn hl hm
    rw [hi.bc] at hblk
    simp only [OrdTree.blocks, if_true] at hblk
    change block < psum _ n / _ at hblk
    rw [htot, Nat.mul_div_cancel_left _ ht] at hblk
    obtain ⟨c, j, hcn, hj, hko⟩ := psum_exists (fun i => sizes.getD i 0) n off
      (by rwa [sum_eq_psum sizes, hl] at hoff)
    obtain ⟨s, hs1, hs2, hs3⟩ := hm c hcn
    have hs : sizes.getD c 0 = s := by simp [List.getD, hs1]
    simp only [hs] at hj
    have hb : s * block + j < (child c).blocks := by
      rw [hs3]
      calc s * block + j < s * block + s := by omega
        _ = s * (block + 1) := by rw [Nat.mul_add, Nat.mul_one]
        _ ≤ s * m := Nat.mul_le_mul_left _ hblk
    obtain ⟨path, d, rest, hd, hmi⟩ := honto c hcn _ hb
    refine ⟨c :: path, d, rest, ⟨hcn, hd⟩, ?_⟩
    rw [mapIndex_inter hgi hcn (by simpa using hmi), hs]
    have e1 : (s * block + j) / s = block := by
      rw [Nat.mul_add_div hs2, Nat.div_eq_of_lt hj]; rfl
    have e2 : (s * block + j) % s = j := by
      rw [Nat.mul_add_mod, Nat.mod_eq_of_lt hj]
    simp [e1, e2, hko]

example : (OrdTree.inter true [1, 2] 2 fun i => if i = 0 then flatLeaf 2 else flatLeaf 3).update = .error .structure ∧
    (OrdTree.inter true [1, 2] 2 fun i => if i = 0 then flatLeaf 2 else flatLeaf 4).Good ∧
    (∀ i, i < 2 → ((fun i => if i = 0 then flatLeaf 2 else flatLeaf 4) i : OrdTree).Onto) := by
  refine ⟨by decide +kernel, ⟨by decide, rfl, ⟨2, ?_⟩, ?_⟩, ?_⟩
  · intro i hi
    have : i = 0 ∨ i = 1 := by omega
    rcases this with rfl | rfl
    · exact ⟨1, rfl, by decide, rfl⟩
    · exact ⟨2, rfl, by decide, rfl⟩
  · intro i hi; by_cases h : i = 0 <;> simp only [h, if_true, if_false] <;> exact flatLeaf_good _
  · have honto : ∀ k, (flatLeaf k).Onto := fun k j hj =>
      ⟨[], j, [], by simpa [flatLeaf, OrdTree.IsDof, OrdTree.blocks] using hj, by simp [flatLeaf, OrdTree.mapIndex, show j < k from hj]⟩
    intro i hi; by_cases h : i = 0 <;> simp only [h, if_true, if_false] <;> exact honto _

/-! ### C09 -/

/-- **C09 is false for the code as it is**: a permutation of the right size that the user put into the tag
before `update()` is not applied (`update()` replaces it by the identity without an error). -/
theorem C09_permutation_survives_update_false :
    ¬ ∀ (p : List Nat) (child : OrdTree), child.Good → p.Perm (List.range child.blocks) →
        ∀ path d b r, child.IsDof path d → child.mapIndex path d = .ok (b :: r) →
          ∃ k, p[b]? = some k ∧ (OrdTree.permuted p none child).mapIndex path d = .ok (k :: r) := by
  intro h
  obtain ⟨k, h1, h2⟩ := h [1, 0] (flatLeaf 2) (flatLeaf_good 2) (by decide +kernel) [] 0 0 []
    (by simp [flatLeaf, OrdTree.IsDof]) (by decide +kernel)
  simp at h1; subst h1
  exact absurd h2 (by decide +kernel)

/-- **C09 (partial)**: a permutation assigned to the tag after `update()` is applied: the DOF whose block
number in the wrapped ordering is `b` gets block number `p[b]`, and the ordering stays injective and
keeps using every block. `update()` itself fails exactly if the tag holds a nonempty vector of the wrong size.
Missing: permutations assigned before `update()` (false, see above). -/
theorem C09_permutation_is_applied_partial (before p : List Nat) (child : OrdTree) (hc : child.Good)
    (hp : p.Perm (List.range child.blocks)) :
    ((OrdTree.permuted before (some p) child).update = .error .permSize ↔
      before ≠ [] ∧ before.length ≠ child.blocks) ∧
    (before = [] ∨ before.length = child.blocks →
      (∀ path d b r, child.IsDof path d → child.mapIndex path d = .ok (b :: r) →
        ∃ k, p[b]? = some k ∧ (OrdTree.permuted before (some p) child).mapIndex path d = .ok (k :: r)) ∧
      (OrdTree.permuted before (some p) child).Injective ∧
      (child.Onto → (OrdTree.permuted before (some p) child).Onto)) := by
  refine ⟨?_, ?_⟩
  · obtain ⟨inf, hi⟩ := update_ok child hc
    have h2 := collect_ok (infos := [inf]) (by simp)
    simp only [OrdTree.update, hi.upd]
    simp only [bind, Except.bind, h2]
    have : inf.blockCount = child.blocks := hi.bc
    simp only [List.map_cons, List.map_nil, List.sum_cons, List.sum_nil, Nat.add_zero, this]
    by_cases hb : before ≠ [] ∧ before.length ≠ child.blocks
    · rw [if_pos hb]; simp [hb]
    · rw [if_neg hb]; simp [hb]
  · intro hb
    have hg : (OrdTree.permuted before (some p) child).Good :=
      ⟨hb, fun q hq => by rw [← Option.some.inj hq]; exact hp, hc⟩
    have hl : p.length = child.blocks := by rw [hp.length_eq]; simp
    refine ⟨?_, (C06_no_two_dofs_share_an_index_partial _ hg).2, ?_⟩
    · intro path d b r hd hm
      obtain ⟨b', r', h1, h2⟩ := mapIndex_ok child hc path d hd
      rw [h1] at hm; simp at hm
      obtain ⟨rfl, rfl⟩ := hm
      refine ⟨_, ?_, mapIndex_permuted hg h1 h2⟩
      simp [permFn, List.getD, List.getElem?_eq_getElem (show b' < p.length by omega)]
    · intro honto k hk
      obtain ⟨b, hb1, hb2⟩ := (permFn_spec hg).2.2 k hk
      obtain ⟨path, d, rest, hd, hm⟩ := honto b hb1
      exact ⟨path, d, rest, hd, by rw [mapIndex_permuted hg (by simpa using hm) hb1, hb2]; rfl⟩

example : [2, 0, 1].Perm (List.range (flatLeaf 3).blocks) ∧
    (OrdTree.permuted [] (some [2, 0, 1]) (flatLeaf 3)).mapIndex [] 0 = .ok [2] ∧
    (OrdTree.permuted [5] (some [2, 0, 1]) (flatLeaf 3)).update = .error .permSize := by decide +kernel

/-! ### C10 -/

/-- **C10**: a chunked ordering maps the DOF with block number `k` to block `k / bs`, position `k % bs`;
`update()` fails exactly if `bs` does not divide the number of blocks; otherwise there are `blocks / bs`
chunks, different DOFs keep different indices, and every position of every chunk is used if every block
of the wrapped ordering is used. -/
theorem C10_chunks (bs : Nat) (child : OrdTree) (hbs : 0 < bs) (hc : child.Good) :
    ((OrdTree.chunked bs child).update = .error .chunkSize ↔ ¬ bs ∣ child.blocks) ∧
    (bs ∣ child.blocks →
      (∃ inf, (OrdTree.chunked bs child).update = .ok inf ∧ inf.blockCount * bs = child.blocks) ∧
      (∀ path d k r, child.IsDof path d → child.mapIndex path d = .ok (k :: r) →
        (OrdTree.chunked bs child).mapIndex path d = .ok (k / bs :: k % bs :: r)) ∧
      (OrdTree.chunked bs child).Injective ∧
      (child.Onto → ∀ chunk pos, chunk * bs < child.blocks → pos < bs →
        (OrdTree.chunked bs child).Occurs [chunk, pos])) := by
  refine ⟨?_, ?_⟩
  · obtain ⟨inf, hi⟩ := update_ok child hc
    have h2 := collect_ok (infos := [inf]) (by simp)
    simp only [OrdTree.update, hi.upd]
    simp only [bind, Except.bind, h2]
    have : inf.blockCount = child.blocks := hi.bc
    rw [if_neg (by omega), this]
    by_cases hd : bs ∣ child.blocks
    · rw [if_neg (by rw [Nat.mod_eq_zero_of_dvd hd]; simp)]; simp [hd]
    · rw [if_pos (fun h => hd (Nat.dvd_of_mod_eq_zero h))]; simp [hd]
  · intro hdv
    have hg : (OrdTree.chunked bs child).Good := ⟨hbs, hdv, hc⟩
    refine ⟨?_, ?_, (C06_no_two_dofs_share_an_index_partial _ hg).2, ?_⟩
    · obtain ⟨inf, hi⟩ := update_ok _ hg
      exact ⟨inf, hi.upd, by rw [hi.bc]; exact Nat.div_mul_cancel hdv⟩
    · intro path d k r hd hm
      exact mapIndex_chunked hg hm
    · intro honto chunk pos h1 h2
      rw [occurs_chunked hg]
      refine ⟨h2, honto _ ?_⟩
      obtain ⟨q, hq⟩ := hdv
      rw [hq] at h1 ⊢
      have : chunk < q := by
        by_contra hx
        have : bs * q ≤ bs * chunk := Nat.mul_le_mul_left _ (by omega)
        rw [Nat.mul_comm chunk] at h1
        omega
      calc bs * chunk + pos < bs * chunk + bs := by omega
        _ = bs * (chunk + 1) := by rw [Nat.mul_add, Nat.mul_one]
        _ ≤ bs * q := Nat.mul_le_mul_left _ this

example : (OrdTree.chunked 2 (flatLeaf 6)).mapIndex [] 5 = .ok [2, 1] ∧
    (OrdTree.chunked 4 (flatLeaf 6)).update = .error .chunkSize := by decide +kernel

/-! ### C11 -/

/-- `size(suffix)` is right for a suffix: the next entries that occur are exactly `0..n-1`. -/
def SizeRight (o : OrdTree) (maxDepth : Nat) (suffix : List Nat) : Prop :=
  ∃ n, o.size maxDepth suffix = .ok n ∧ ∀ x, o.Occurs (suffix ++ [x]) ↔ x < n

/-- Leaf with `k` blocks of 2 DOFs, as a DG space with blocked elements. -/
def blockedLeaf (k : Nat) : OrdTree :=
  .leaf k ((List.range k).flatMap fun i => [[i, 0], [i, 1]])

/-- **C11 is false for the code as it is.** First witness: unblocked lexicographic ordering of two
children with 2 blocks of 2 DOFs each: the size of block 2 (the first block of the second child) is
looked up in a child that does not exist, although the block occurs. -/
theorem C11_sizes_match_false :
    ¬ ∀ (o : OrdTree) (m : Nat) (suffix : List Nat), o.Good → o.DepthLe m → o.Occurs suffix →
        SizeRight o m suffix := by
  intro h
  have hgl : (blockedLeaf 2).Good := by
    refine ⟨by decide +kernel, ?_⟩
    intro ci hci
    have : ci = [0, 0] ∨ ci = [0, 1] ∨ ci = [1, 0] ∨ ci = [1, 1] := by
      simpa [blockedLeaf, List.range_succ] using hci
    rcases this with rfl | rfl | rfl | rfl
    · exact ⟨0, [0], rfl, by decide⟩
    · exact ⟨0, [1], rfl, by decide⟩
    · exact ⟨1, [0], rfl, by decide⟩
    · exact ⟨1, [1], rfl, by decide⟩
  have hg : (OrdTree.lex false 2 fun _ => blockedLeaf 2).Good := ⟨by decide, fun _ _ => hgl⟩
  obtain ⟨n, h1, _⟩ := h (OrdTree.lex false 2 fun _ => blockedLeaf 2) 2 [2] hg
    (by
      intro path d ci hd hm
      cases path with
      | nil => simp [OrdTree.IsDof] at hd
      | cons c path =>
        obtain ⟨hc, hd⟩ := hd
        obtain ⟨b, r, h1, h2⟩ := mapIndex_ok _ hgl path d hd
        rw [mapIndex_lex hg hc h1] at hm
        simp at hm; subst hm
        cases path with
        | nil =>
          have hd : d < 4 := hd
          have hlen : ∀ ci ∈ ((List.range 2).flatMap fun i => [[i, 0], [i, 1]]), ci.length ≤ 2 := by decide +kernel
          have : b :: r ∈ ((List.range 2).flatMap fun i => [[i, 0], [i, 1]]) := by
            have hd' : d < ((List.range 2).flatMap fun i => [[i, 0], [i, 1]]).length := hd
            simp only [blockedLeaf, OrdTree.mapIndex, List.getElem?_eq_getElem hd', Except.ok.injEq] at h1
            rw [← h1]; exact List.getElem_mem hd'
          simpa using hlen _ this
        | cons => simp [blockedLeaf, OrdTree.IsDof] at hd)
    ⟨[1], 0, [0], by simp [blockedLeaf, OrdTree.IsDof, List.range_succ], by decide +kernel⟩
  exact absurd h1 (by
    rw [show (OrdTree.lex false 2 fun _ => blockedLeaf 2).size 2 [2] = .error .undefined from by decide +kernel]
    simp)

/-- Second witness: container-blocked interleaving of two children with (1,1) blocks. The reconstructed
child index forgets to subtract the child's offset in the block, so for the last block of the second
child `size` reports 0 instead of 2. -/
theorem C11_interleaved_sizes_false :
    ∃ o : OrdTree, o.Good ∧ o.Occurs [1, 1, 0] ∧ o.Occurs [1, 1, 1] ∧ o.size 3 [1, 1] = .ok 0 := by
  refine ⟨.inter true [1, 1] 2 fun _ => blockedLeaf 2, ?_, ?_, ?_, by decide +kernel⟩
  · have hgl : (blockedLeaf 2).Good := by
      refine ⟨by decide +kernel, ?_⟩
      intro ci hci
      have : ci = [0, 0] ∨ ci = [0, 1] ∨ ci = [1, 0] ∨ ci = [1, 1] := by
        simpa [blockedLeaf, List.range_succ] using hci
      rcases this with rfl | rfl | rfl | rfl
      · exact ⟨0, [0], rfl, by decide⟩
      · exact ⟨0, [1], rfl, by decide⟩
      · exact ⟨1, [0], rfl, by decide⟩
      · exact ⟨1, [1], rfl, by decide⟩
    refine ⟨by decide, rfl, ⟨2, ?_⟩, fun _ _ => hgl⟩
    intro i hi
    have : i = 0 ∨ i = 1 := by omega
    rcases this with rfl | rfl
    · exact ⟨1, rfl, by decide, rfl⟩
    · exact ⟨1, rfl, by decide, rfl⟩
  · exact ⟨[1], 2, [], by simp [blockedLeaf, OrdTree.IsDof, List.range_succ], by decide +kernel⟩
  · exact ⟨[1], 3, [], by simp [blockedLeaf, OrdTree.IsDof, List.range_succ], by decide +kernel⟩

/-- **C11 (partial)**: for trees of blocked lexicographic and chunked orderings (and permuted ones whose
permutation is the one set by `update()`) over leaves without gaps, `size(suffix)` of every occurring
suffix is the number of next positions, and these are `0..n-1`.
Missing: unblocked lexicographic and interleaved nodes, for which the code is wrong (see above), and
permutations assigned after `update()`. -/
theorem C11_sizes_match_partial (o : OrdTree) (m : Nat) (suffix : List Nat) (hg : o.Good) (hs : o.Sized)
    (hd : o.DepthLe m) (ho : o.Occurs suffix) : SizeRight o m suffix :=
  size_ok o m hg hs hd suffix ho

/-- **C11 (partial), empty suffix**: for every good tree that uses all its blocks, `size({})` of the tree
is the number of top-level blocks and all of them occur. -/
theorem C11_top_level_size_partial (o : OrdTree) (hg : o.Good) (hon : o.Onto) :
    ∃ inf, o.update = .ok inf ∧ ∀ x, o.Occurs [x] ↔ x < inf.blockCount := by
  obtain ⟨inf, hi⟩ := update_ok o hg
  refine ⟨inf, hi.upd, fun x => ?_⟩
  rw [hi.bc]
  refine ⟨?_, hon x⟩
  rintro ⟨path, d, rest, hd, hm⟩
  obtain ⟨b, r, h1, h2⟩ := mapIndex_ok o hg path d hd
  rw [h1] at hm; simp at hm
  omega

example : (OrdTree.lex true 2 fun _ => OrdTree.chunked 2 (flatLeaf 4)).Sized ∧
    (OrdTree.lex true 2 fun _ => OrdTree.chunked 2 (flatLeaf 4)).size 3 [1, 0] = .ok 2 := by
  have hoc : ∀ s x, (flatLeaf 4).Occurs (s ++ [x]) ↔ s = [] ∧ x < 4 := by
    intro s x
    constructor
    · rintro ⟨path, d, rest, hd, hm⟩
      cases path with
      | nil =>
        have hd : d < 4 := by simpa [flatLeaf, OrdTree.IsDof] using hd
        simp [flatLeaf, OrdTree.mapIndex, hd] at hm
        cases s with
        | nil => simp at hm; exact ⟨rfl, by omega⟩
        | cons a s => simp at hm
      | cons => simp [flatLeaf, OrdTree.IsDof] at hd
    · rintro ⟨rfl, hx⟩
      exact ⟨[], x, [], by simpa [flatLeaf, OrdTree.IsDof] using hx, by simp [flatLeaf, OrdTree.mapIndex, hx]⟩
  refine ⟨⟨rfl, fun i _ => ⟨⟨fun x => ?_, fun s hs => ⟨0, fun x => ?_⟩⟩, ?_⟩⟩, by decide +kernel⟩
  · have := hoc [] x
    simp only [List.nil_append, true_and] at this; exact this
  · have := hoc s x
    simp only [hs, false_and] at this
    exact ⟨fun h => absurd (this.1 h) (by simp), fun h => absurd h (by omega)⟩
  · exact ⟨[], 0, [0, 0], by simp [flatLeaf, OrdTree.IsDof],
      show (OrdTree.chunked 2 (flatLeaf 4)).mapIndex [] 0 = _ from by decide +kernel⟩

end Verif
