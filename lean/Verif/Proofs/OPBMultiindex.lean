import Verif.Spec.OrthonormalBasis
import Verif.Proofs.FiniteElements
import Mathlib.Data.Nat.Choose.Sum
import Mathlib.Data.List.GetD
namespace Verif.OPB

theorem foldl_add_range' (f : Nat → Nat) (n a : Nat) :
    (List.range n).foldl (fun r j => r + f j) a = a + ∑ j ∈ Finset.range n, f j := by
  induction n with
  | zero => simp
  | succ n ih => rw [List.range_succ, List.foldl_append, ih, Finset.sum_range_succ]; simp [add_assoc]

theorem sum_map_range {M : Type} [AddCommMonoid M] (f : Nat → M) (n : Nat) :
    ((List.range n).map f).sum = ∑ j ∈ Finset.range n, f j := by
  induction n with
  | zero => simp
  | succ n ih => rw [List.range_succ, List.map_append, List.sum_append, ih, Finset.sum_range_succ]; simp

theorem pkSize_eq : ∀ d k : Nat, pkSize d k = (k + d).choose d
  | d, 0 => by unfold pkSize; simp
  | 0, k + 1 => by unfold pkSize; simp
  | 1, k + 1 => by unfold pkSize; simp
  | d + 2, k + 1 => by
    unfold pkSize
    rw [foldl_add_range']
    have : ∑ j ∈ Finset.range (k + 2), pkSize (d + 1) (k + 1 - j) =
        ∑ j ∈ Finset.range (k + 2), (j + (d + 1)).choose (d + 1) := by
      rw [← Finset.sum_range_reflect (fun j => (j + (d + 1)).choose (d + 1))]
      refine Finset.sum_congr rfl fun j hj => ?_
      rw [pkSize_eq]
      congr 2
    rw [this, Nat.sum_range_add_choose]
    simp only [zero_add]
    congr 1

/-- The multiindices of degree `k` in the order of the enumeration. -/
def pkList : (n k : Nat) → List (List Nat)
  | 0, _ => []
  | n + 1, k => (k :: List.replicate n 0) :: (List.range k).reverse.flatMap fun m => (pkList n (k - m)).map (m :: ·)

theorem pkEnumerate_eq (i : Int) : ∀ (n k : Nat) (count : Int), count < i →
    pkEnumerate i n (List.replicate n 0) count k =
      if h : (i - count - 1).toNat < (pkList n k).length then ((pkList n k)[(i - count - 1).toNat], i)
      else (List.replicate n 0, count + (pkList n k).length) := by
  intro n
  induction n with
  | zero => intro k count hc; simp [pkEnumerate, pkList]
  | succ n ih =>
    intro k count hc
    unfold pkEnumerate
    dsimp only
    rw [List.replicate_succ, List.tail_cons]
    by_cases h1 : count + 1 = i
    · rw [if_pos h1]
      have : (i - count - 1).toNat = 0 := by omega
      simp only [this]
      rw [dif_pos (by simp [pkList])]
      simp [pkList, h1]
    · rw [if_neg h1]
      have hc1 : count + 1 < i := by omega
      -- the loop
      have key : ∀ (ms : List Nat) (h : Nat) (count : Int), count < i →
          ms.foldl (fun (st : List Nat × Int × Bool) m =>
            if st.2.2 then st
            else (m :: (pkEnumerate i n st.1.tail st.2.1 (k - m)).1, (pkEnumerate i n st.1.tail st.2.1 (k - m)).2,
              (pkEnumerate i n st.1.tail st.2.1 (k - m)).2 == i)) (h :: List.replicate n 0, count, false) =
          if hl : (i - count - 1).toNat < (ms.flatMap fun m => (pkList n (k - m)).map (m :: ·)).length then
            ((ms.flatMap fun m => (pkList n (k - m)).map (m :: ·))[(i - count - 1).toNat], i, true)
          else (ms.getLastD h :: List.replicate n 0, count + (ms.flatMap fun m => (pkList n (k - m)).map (m :: ·)).length, false) := by
        intro ms
        induction ms with
        | nil => intro h count _; simp
        | cons m ms ihm =>
          intro h count hc
          rw [List.foldl_cons]
          dsimp only
          rw [if_neg (by simp), List.tail_cons, ih (k - m) count hc]
          by_cases h2 : (i - count - 1).toNat < (pkList n (k - m)).length
          · rw [dif_pos h2]
            dsimp only
            rw [beq_self_eq_true]
            have hfix : ∀ (ms : List Nat) (a : List Nat) (b : Int), ms.foldl (fun (st : List Nat × Int × Bool) m =>
                if st.2.2 then st
                else (m :: (pkEnumerate i n st.1.tail st.2.1 (k - m)).1, (pkEnumerate i n st.1.tail st.2.1 (k - m)).2,
                  (pkEnumerate i n st.1.tail st.2.1 (k - m)).2 == i)) (a, b, true) = (a, b, true) := by
              intro ms
              induction ms with
              | nil => intro a b; rfl
              | cons m ms ihh => intro a b; rw [List.foldl_cons]; simp only [if_true]; exact ihh a b
            rw [hfix, dif_pos (by rw [List.flatMap_cons, List.length_append, List.length_map]; omega)]
            simp only [List.flatMap_cons]
            rw [List.getElem_append_left (by simpa using h2), List.getElem_map]
          · rw [dif_neg h2]
            dsimp only
            have hc' : count + ((pkList n (k - m)).length : Int) < i := by omega
            have hb : (count + ((pkList n (k - m)).length : Int) == i) = false := by
              rw [beq_eq_false_iff_ne]; omega
            rw [hb, ihm m _ hc']
            have hidx : (i - (count + ((pkList n (k - m)).length : Int)) - 1).toNat =
                (i - count - 1).toNat - (pkList n (k - m)).length := by omega
            simp only [hidx, List.flatMap_cons, List.length_append, List.length_map]
            by_cases h3 : (i - count - 1).toNat - (pkList n (k - m)).length <
                (ms.flatMap fun m => (pkList n (k - m)).map (m :: ·)).length
            · rw [dif_pos h3, dif_pos (by omega)]
              rw [List.getElem_append_right (by simpa using h2)]
              simp
            · rw [dif_neg h3, dif_neg (by omega)]
              simp only [List.getLastD_cons]
              push_cast
              simp [add_assoc]
      rw [key _ k (count + 1) hc1]
      have hidx : (i - (count + 1) - 1).toNat + 1 = (i - count - 1).toNat := by omega
      have hlen : (pkList (n + 1) k).length = ((List.range k).reverse.flatMap fun m => (pkList n (k - m)).map (m :: ·)).length + 1 := by
        simp [pkList]
      by_cases h4 : (i - (count + 1) - 1).toNat < ((List.range k).reverse.flatMap fun m => (pkList n (k - m)).map (m :: ·)).length
      · rw [dif_pos h4, dif_pos (by omega)]
        simp only [if_true]
        congr 1
        simp only [pkList, ← hidx, List.getElem_cons_succ]
      · rw [dif_neg h4, dif_neg (by omega)]
        simp only [Bool.false_eq_true, if_false, List.tail_cons]
        rw [hlen]
        push_cast
        congr 1
        omega

theorem mem_pkList (n : Nat) : ∀ (k : Nat) (a : List Nat), a ∈ pkList n k → a.length = n ∧ a.sum = k := by
  induction n with
  | zero => intro k a h; simp [pkList] at h
  | succ n ih =>
    intro k a h
    simp only [pkList, List.mem_cons, List.mem_flatMap, List.mem_reverse, List.mem_range, List.mem_map] at h
    rcases h with rfl | ⟨m, hm, b, hb, rfl⟩
    · simp
    · obtain ⟨h1, h2⟩ := ih _ _ hb
      simp only [List.length_cons, List.sum_cons]
      omega

theorem pkList_complete (n : Nat) : ∀ (k : Nat) (a : List Nat), 0 < k → a.length = n → a.sum = k → a ∈ pkList n k := by
  induction n with
  | zero =>
    intro k a hk hl hs
    rw [List.length_eq_zero_iff] at hl
    subst hl
    simp at hs; omega
  | succ n ih =>
    intro k a hk hl hs
    match a, hl with
    | m :: b, hl =>
      simp only [List.length_cons, Nat.add_right_cancel_iff] at hl
      simp only [List.sum_cons] at hs
      simp only [pkList, List.mem_cons, List.mem_flatMap, List.mem_reverse, List.mem_range, List.mem_map]
      by_cases hm : m = k
      · left
        have : b.sum = 0 := by omega
        rw [List.sum_eq_zero_iff] at this
        rw [hm]
        congr 1
        rw [List.eq_replicate_iff]
        exact ⟨hl, this⟩
      · right
        refine ⟨m, by omega, b, ih (k - m) b (by omega) hl (by omega), rfl⟩

theorem pkList_nodup (n : Nat) : ∀ k : Nat, (pkList n k).Nodup := by
  induction n with
  | zero => intro k; simp [pkList]
  | succ n ih =>
    intro k
    unfold pkList
    rw [List.nodup_cons]
    constructor
    · simp only [List.mem_flatMap, List.mem_reverse, List.mem_range, List.mem_map, not_exists, not_and]
      intro m hm b _ he
      rw [List.cons.injEq] at he
      omega
    · rw [List.nodup_flatMap]
      constructor
      · intro m _
        exact (ih (k - m)).map fun a b h => (List.cons.inj h).2
      · rw [List.pairwise_reverse]
        refine List.pairwise_lt_range.imp ?_
        intro a b hab
        simp only [Function.onFun, List.disjoint_left, List.mem_map]
        rintro x ⟨u, _, rfl⟩ ⟨v, _, he⟩
        rw [List.cons.injEq] at he
        omega

theorem pkList_length : ∀ (n k : Nat), (pkList (n + 1) k).length = (k + n).choose n
  | 0, k => by simp [pkList]
  | n + 1, k => by
    unfold pkList
    rw [List.length_cons, List.length_flatMap]
    have h1 : ((List.range k).reverse.map fun m => ((pkList (n + 1) (k - m)).map (m :: ·)).length).sum =
        ∑ m ∈ Finset.range k, (k - m + n).choose n := by
      rw [List.map_reverse, List.sum_reverse, sum_map_range]
      refine Finset.sum_congr rfl fun m _ => ?_
      rw [List.length_map, pkList_length n]
    rw [h1]
    have h2 := Nat.sum_range_add_choose k n
    rw [Finset.sum_range_succ', ← Finset.sum_range_reflect] at h2
    simp only [zero_add, Nat.choose_self] at h2
    have h3 : ∑ m ∈ Finset.range k, (k - m + n).choose n = ∑ j ∈ Finset.range k, (k - 1 - j + 1 + n).choose n := by
      refine Finset.sum_congr rfl fun m hm => ?_
      have := Finset.mem_range.1 hm
      congr 2
      omega
    rw [h3, h2]
    congr 1

theorem pkList_length' (d k : Nat) (hd : 0 < d) (hk : 0 < k) : pkSize d (k - 1) + (pkList d k).length = pkSize d k := by
  obtain ⟨n, rfl⟩ := Nat.exists_eq_add_of_lt hd
  obtain ⟨m, rfl⟩ := Nat.exists_eq_add_of_lt hk
  simp only [zero_add, Nat.add_sub_cancel]
  rw [pkSize_eq, pkSize_eq, pkList_length]
  have : m + 1 + (n + 1) = (m + 1 + n) + 1 := by omega
  rw [this, Nat.choose_succ_succ]
  have : m + 1 + n = m + (n + 1) := by omega
  rw [this, add_comm]

theorem pkSize_mono (d : Nat) {k l : Nat} (h : k ≤ l) : pkSize d k ≤ pkSize d l := by
  rw [pkSize_eq, pkSize_eq]
  exact Nat.choose_le_choose _ (by omega)

theorem pkSize_zero (d : Nat) : pkSize d 0 = 1 := by unfold pkSize; rfl

/-- What `pk_multiindex` gives. -/
theorem pkMultiindex_eq (d i k : Nat) (hk : 0 < k) (hk' : k ≤ 24) (hd : 0 < d) (h1 : pkSize d (k - 1) ≤ i) (h2 : i < pkSize d k) :
    ∃ h : i - pkSize d (k - 1) < (pkList d k).length, pkMultiindex d i = some (pkList d k)[i - pkSize d (k - 1)] := by
  have hl := pkList_length' d k hd hk
  refine ⟨by omega, ?_⟩
  unfold pkMultiindex
  have hi : i ≠ 0 := by
    have := pkSize_mono d (Nat.zero_le (k - 1))
    rw [pkSize_zero] at this
    omega
  rw [if_neg hi]
  have hf : (List.range' 1 24).find? (fun k => decide (i ≥ pkSize d (k - 1) ∧ i < pkSize d k)) = some k := by
    have hmem : k ∈ List.range' 1 24 := by rw [List.mem_range'_1]; omega
    have hsome : ((List.range' 1 24).find? (fun k => decide (i ≥ pkSize d (k - 1) ∧ i < pkSize d k))).isSome := by
      rw [List.find?_isSome]
      exact ⟨k, hmem, by simp only [decide_eq_true_eq]; exact ⟨h1, h2⟩⟩
    obtain ⟨k', hk2⟩ := Option.isSome_iff_exists.1 hsome
    have hp := List.find?_some hk2
    have hm := List.mem_range'_1.1 (List.mem_of_find?_eq_some hk2)
    simp only [decide_eq_true_eq] at hp
    rw [hk2]
    congr 1
    by_contra hne
    rcases Nat.lt_or_gt_of_ne hne with h | h
    · have := pkSize_mono d (show k' ≤ k - 1 by omega); omega
    · have := pkSize_mono d (show k ≤ k' - 1 by omega); omega
  rw [hf]
  dsimp only
  rw [pkEnumerate_eq _ _ _ _ (by omega)]
  have hidx : ((i : Int) - (pkSize d (k - 1) : Int) - (-1) - 1).toNat = i - pkSize d (k - 1) := by omega
  simp only [hidx]
  rw [dif_pos (by omega)]

theorem pkMultiindex_zero (d : Nat) : pkMultiindex d 0 = some (List.replicate d 0) := by
  unfold pkMultiindex; rfl

theorem pkMultiindex_none (d i : Nat) (h : pkSize d 24 ≤ i) : pkMultiindex d i = none := by
  have h0 : i ≠ 0 := by
    have := pkSize_mono d (Nat.zero_le 24)
    rw [pkSize_zero] at this
    omega
  unfold pkMultiindex
  rw [if_neg h0]
  have : (List.range' 1 24).find? (fun k => decide (i ≥ pkSize d (k - 1) ∧ i < pkSize d k)) = none := by
    rw [List.find?_eq_none]
    intro k hk
    have := List.mem_range'_1.1 hk
    have := pkSize_mono d (show k ≤ 24 by omega)
    simp only [decide_eq_true_eq]
    omega
  rw [this]

/-- The level on which a number lies. -/
theorem exists_level (d i : Nat) (hi : i ≠ 0) (K : Nat) (h : i < pkSize d K) :
    ∃ k, 0 < k ∧ k ≤ K ∧ pkSize d (k - 1) ≤ i ∧ i < pkSize d k := by
  have hex : ∃ k, i < pkSize d k := ⟨K, h⟩
  classical
  refine ⟨Nat.find hex, ?_, Nat.find_min' hex h, ?_, Nat.find_spec hex⟩
  · rw [Nat.pos_iff_ne_zero]
    intro h0
    have := Nat.find_spec hex
    rw [h0, pkSize_zero] at this
    omega
  · have hpos : Nat.find hex ≠ 0 := by
      intro h0
      have := Nat.find_spec hex
      rw [h0, pkSize_zero] at this
      omega
    have := Nat.find_min hex (show Nat.find hex - 1 < Nat.find hex by omega)
    omega

theorem pkMultiindex_spec (d i K : Nat) (hd : 0 < d) (hK : K ≤ 24) (hi : i < pkSize d K) :
    ∃ a, pkMultiindex d i = some a ∧ a.length = d ∧ a.sum ≤ K ∧ i < pkSize d a.sum ∧ (a.sum ≠ 0 → pkSize d (a.sum - 1) ≤ i) := by
  by_cases h0 : i = 0
  · subst h0
    refine ⟨_, pkMultiindex_zero d, by simp, by simp, ?_, by simp⟩
    simp only [List.sum_replicate, smul_zero, pkSize_zero]
    omega
  · obtain ⟨k, hk0, hk, h1, h2⟩ := exists_level d i h0 K hi
    obtain ⟨h, he⟩ := pkMultiindex_eq d i k hk0 (by omega) hd h1 h2
    obtain ⟨hl, hs⟩ := mem_pkList d k _ (List.getElem_mem h)
    refine ⟨_, he, hl, ?_, ?_, ?_⟩
    · omega
    · rw [hs]; exact h2
    · intro _; rw [hs]; exact h1

theorem pkMultiindex_injective (d i i' : Nat) (hd : 0 < d) (a : List Nat) (h : pkMultiindex d i = some a)
    (h' : pkMultiindex d i' = some a) : i = i' := by
  have hlt : ∀ i, pkMultiindex d i = some a → i < pkSize d 24 := by
    intro i h
    by_contra hn
    rw [pkMultiindex_none d i (by omega)] at h
    exact absurd h (by simp)
  have hi := hlt i h
  have hi' := hlt i' h'
  obtain ⟨b, hb, _, _, hb2, hb3⟩ := pkMultiindex_spec d i 24 hd le_rfl hi
  obtain ⟨b', hb', _, _, hb2', hb3'⟩ := pkMultiindex_spec d i' 24 hd le_rfl hi'
  rw [h] at hb; rw [h'] at hb'
  cases hb; cases hb'
  by_cases h0 : a.sum = 0
  · rw [h0, pkSize_zero] at hb2 hb2'
    omega
  · have hle : a.sum ≤ 24 := by
      by_contra hn
      have := hb3 h0
      have := pkSize_mono d (show 24 ≤ a.sum - 1 by omega)
      omega
    obtain ⟨k1, e1⟩ := pkMultiindex_eq d i a.sum (by omega) hle hd (hb3 h0) hb2
    obtain ⟨k2, e2⟩ := pkMultiindex_eq d i' a.sum (by omega) hle hd (hb3' h0) hb2'
    rw [h] at e1; rw [h'] at e2
    rw [Option.some.injEq] at e1 e2
    have := (List.Nodup.getElem_inj_iff (pkList_nodup d a.sum)).1 (e1.symm.trans e2)
    have := hb3 h0
    have := hb3' h0
    omega

theorem pkMultiindex_surjective (d : Nat) (a : List Nat) (hd : 0 < d) (hl : a.length = d) (hs : a.sum ≤ 24) :
    ∃ i, i < pkSize d a.sum ∧ pkMultiindex d i = some a := by
  by_cases h0 : a.sum = 0
  · refine ⟨0, ?_, ?_⟩
    · rw [h0, pkSize_zero]; omega
    · rw [pkMultiindex_zero]
      congr 1
      rw [List.sum_eq_zero_iff] at h0
      exact (List.eq_replicate_iff.2 ⟨hl, h0⟩).symm
  · obtain ⟨j, hj, he⟩ := List.mem_iff_getElem.1 (pkList_complete d a.sum a (by omega) hl rfl)
    have hlen := pkList_length' d a.sum hd (by omega)
    obtain ⟨h, e⟩ := pkMultiindex_eq d (pkSize d (a.sum - 1) + j) a.sum (by omega) hs hd (by omega) (by omega)
    refine ⟨_, by omega, e.trans ?_⟩
    congr 1
    simp only [Nat.add_sub_cancel_left]
    exact he

theorem qkSize_eq (d k : Nat) : qkSize d k = (k + 1) ^ d := by
  unfold qkSize
  induction d with
  | zero => rfl
  | succ d ih => rw [List.range_succ, List.foldl_append, ih, pow_succ]; rfl

theorem qkMultiindex_eq (k d i : Nat) : qkMultiindex k d i = FE.multiindex k d i := by
  induction d generalizing i with
  | zero => rfl
  | succ d ih => simp only [qkMultiindex, FE.multiindex, ih]

end Verif.OPB
