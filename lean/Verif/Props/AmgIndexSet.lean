import Verif.Proofs.AmgIndexSet
/-
C147: the parallel index set for the algebraic multigrid.

`Valid L ents ndof ibOnly` describes a distributed grid with a function space; `rmsgs`, `smsgs` and `msgs` are the messages of the three communications
in any order of delivery. A DOF is a pair of an entity and a number.
-/
namespace Verif

open ParallelHelper ParallelHelper.Spec ParallelSolvers ParallelSolvers.Spec AmgIndexSet AmgIndexSet.Spec

section
variable {L : Layout} {ents : List Nat} {ndof : Nat → Nat} {ibOnly : Bool}

private theorem flags_iff (hv : Valid L ents ndof ibOnly) {rmsgs smsgs : List Msg} (hr : Interface L ibOnly rmsgs) (hs : AllMessages L ibOnly smsgs)
    {has : Msg → Bool} (hhas : ∀ m ∈ smsgs, has m = true ↔ ∃ c ∈ L.copies m.src, c.ent = m.copy.ent ∧ c.dofs ≠ []) {p : Nat} (hp : p < L.procs)
    {c : Copy} (hc : c ∈ L.copies p) {i : Nat} (hi : i ∈ c.dofs) :
    (ownedShared L (rankPartition L rmsgs) (if L.procs > 1 then sharedDofs L has smsgs else fun p => List.replicate (L.size p) false) p)[i]? = some true ↔
      Lowest L c.ent p ∧ SharedEntity L c.ent := by
  have hlt := pos_lt hv hp hc hi
  have hown : owned p (rankPartition L rmsgs p) i = true ↔ Lowest L c.ent p := by
    obtain ⟨q, h1, h2⟩ := rankPartition_eq hv hr hp hc hi
    unfold owned
    rw [h2]
    constructor
    · intro h
      have : q = p := by simpa using h
      rw [← this]; exact h1
    · intro h; rw [lowest_unique h1 h]; simp
  unfold ownedShared
  rw [List.getElem?_map, List.getElem?_range hlt, Option.map_some, Option.some.injEq, Bool.and_eq_true, hown]
  by_cases h1 : L.procs > 1
  · rw [if_pos h1, sharedDofs_iff hv hs has hhas hp hc hi]
  · rw [if_neg h1]
    constructor
    · intro h
      have h := h.2
      rw [List.getElem?_replicate, if_pos hlt] at h
      cases h
    · rintro ⟨_, q, q', hqq, ⟨hq, _⟩, ⟨hq', _⟩⟩
      omega

/-- The index the owner of a DOF gives to it. -/
private def Given (L : Layout) (x : Vecs (Option Nat)) (e k n : Nat) : Prop := ∃ q i, q < L.procs ∧ pos L Copy.ib q e k = some i ∧ x q i = some n

/-- C147. For every distribution and every order of delivery, the index sets of all processes contain exactly the DOFs that exist on several processes. All
copies of such a DOF have the same global index, different DOFs have different ones, and the global indices are `0, …, N-1`. The attribute is owner on the
lowest rank on which the entity is interior or border, and copy on all other processes. Every local index occurs once. -/
theorem C147_index_set (hv : Valid L ents ndof ibOnly) {rmsgs smsgs : List Msg} {msgs : List Message} (hr : Interface L ibOnly rmsgs)
    (hs : AllMessages L ibOnly smsgs) {has : Msg → Bool} (hhas : ∀ m ∈ smsgs, has m = true ↔ ∃ c ∈ L.copies m.src, c.ent = m.copy.ent ∧ c.dofs ≠ [])
    (hm : Exchange L Copy.ib (if ibOnly then Copy.ib else all) msgs) :
    ∃ S, createIndexSet L has rmsgs smsgs msgs = some S ∧ ∃ (G : Nat → Nat → Nat) (N : Nat),
      (∀ p, p < L.procs → ∀ g i a, (g, i, a) ∈ S p ↔ ∃ c ∈ L.copies p, ∃ k : Nat, c.dofs[k]? = some i ∧ SharedEntity L c.ent ∧ g = G c.ent k ∧
        (a = true ↔ Lowest L c.ent p)) ∧
      (∀ p, ((S p).map fun x => x.2.1).Pairwise (· < ·)) ∧
      (∀ e ∈ ents, ∀ k, k < ndof e → ∀ e' ∈ ents, ∀ k', k' < ndof e' → SharedEntity L e → SharedEntity L e' → G e k = G e' k' → e = e' ∧ k = k') ∧
      ∀ n, n < N ↔ ∃ e ∈ ents, ∃ k, k < ndof e ∧ SharedEntity L e ∧ G e k = n := by
  classical
  have hflags := fun {p : Nat} (hp : p < L.procs) {c : Copy} (hc : c ∈ L.copies p) {i : Nat} (hi : i ∈ c.dofs) => flags_iff hv hr hs hhas hp hc hi
  generalize hsh : (if L.procs > 1 then sharedDofs L has smsgs else fun p => List.replicate (L.size p) false) = shared at hflags
  generalize hfl : ownedShared L (rankPartition L rmsgs) shared = flags at hflags
  have hlen : ∀ p, (flags p).length = L.size p := by intro p; rw [← hfl]; simp [ownedShared]
  -- indices are given by the lowest rank only
  have hfirst : ∀ {q e k i n : Nat}, q < L.procs → pos L Copy.ib q e k = some i → firstIndices flags q i = some n → Lowest L e q ∧ SharedEntity L e := by
    intro q e k i n hq hpos h
    obtain ⟨c, hc, _, rfl, hk⟩ := of_pos hpos
    exact (hflags hq hc (List.mem_of_getElem? hk)).1 ((firstIndices_iff _ _ _ _).1 h).1
  have hex : ∀ {e k : Nat}, e ∈ ents → k < ndof e → SharedEntity L e → ∃ n, Given L (firstIndices flags) e k n := by
    intro e k he hk hsh
    obtain ⟨q, hq⟩ := exists_lowest (hv.somewhere e he)
    have ⟨hlt, ⟨c, hc, hce, hib⟩, _⟩ := hq
    subst hce
    have hdl : c.dofs.length = ndof c.ent := by
      rcases hv.dofs q hlt c hc with h | h
      · exact h
      · rw [h.1] at hib; cases hib
    obtain ⟨i, hk'⟩ : ∃ i, c.dofs[k]? = some i := ⟨_, List.getElem?_eq_getElem (by omega)⟩
    have := (hflags hlt hc (List.mem_of_getElem? hk')).2 ⟨hq, hsh⟩
    exact ⟨_, q, i, hlt, by rw [pos_eq hv hlt hc hib]; exact hk', (firstIndices_iff _ _ _ _).2 ⟨this, rfl⟩⟩
  have huniq : ∀ {e k n n' : Nat}, Given L (firstIndices flags) e k n → Given L (firstIndices flags) e k n' → n = n' := by
    rintro e k n n' ⟨q, i, hq, hpos, h⟩ ⟨q', i', hq', hpos', h'⟩
    have := lowest_unique (hfirst hq hpos h).1 (hfirst hq' hpos' h').1
    subst this
    rw [hpos, Option.some.injEq] at hpos'
    subst hpos'
    rw [h, Option.some.injEq] at h'
    exact h'
  -- the communicated indices
  have hnum : ∃ num, (if L.procs > 1 then communicate scatterMin msgs (firstIndices flags) else some (firstIndices flags)) = some num ∧
      ∀ p, p < L.procs → ∀ c ∈ L.copies p, ∀ k i n : Nat, c.dofs[k]? = some i → (num p i = some n ↔ SharedEntity L c.ent ∧ Given L (firstIndices flags) c.ent k n) := by
    by_cases h1 : L.procs > 1
    · rw [if_pos h1]
      refine ⟨_, communicate_eq scatterMin (fun _ _ => rfl) _ msgs (fits_ib hv hm) _, ?_⟩
      intro p hp c hc k i n hk
      have hce := hv.known p hp c hc
      have hkn : k < ndof c.ent := by
        have hlt : k < c.dofs.length := (List.getElem?_eq_some_iff.1 hk).1
        rcases hv.dofs p hp c hc with h | h
        · omega
        · rw [h.2] at hlt; simp at hlt
      have hgot : ∀ m ∈ msgs, ∀ v, got (firstIndices flags) p c k m = some v → Given L (firstIndices flags) c.ent k v := by
        intro m hmm v hgv
        unfold got at hgv
        split at hgv
        · rename_i hd
          obtain ⟨a1, a2, a3, a4, a5, a6, a7, a8⟩ := (hm.2 m).1 hmm
          cases hdk : m.sent.dofs[k]? with
          | none => rw [hdk] at hgv; cases hgv
          | some j =>
            rw [hdk] at hgv
            exact ⟨m.src, j, a1, by rw [← hd.2, ← a6, pos_eq hv a1 a4 a7]; exact hdk, hgv⟩
        · cases hgv
      have hown : ∀ v, firstIndices flags p i = some v → Given L (firstIndices flags) c.ent k v := by
        intro v h
        have hl := (hflags hp hc (List.mem_of_getElem? hk)).1 ((firstIndices_iff _ _ _ _).1 h).1
        obtain ⟨c', hc', he', hib'⟩ := hl.1.2.1
        have := ent_unique (hv.once p hp) hc' hc he'
        subst this
        exact ⟨p, i, hp, by rw [pos_eq hv hp hc hib']; exact hk, h⟩
      by_cases hshared : SharedEntity L c.ent
      · obtain ⟨n', hn'⟩ := hex hce hkn hshared
        have hopt : ∀ o : Option Nat, (∀ v, o = some v → Given L (firstIndices flags) c.ent k v) → o = none ∨ o = some n' := by
          intro o ho
          cases o with
          | none => exact Or.inl rfl
          | some v => exact Or.inr (by rw [huniq (ho v rfl) hn'])
        obtain ⟨k1, k2⟩ := foldl_min hv (firstIndices flags) hp hc hk n' msgs (fits_ib hv hm)
          (fun m hmm hd => by rw [← hd]; exact ((hm.2 m).1 hmm).2.2.2.2.1) (fun m hmm => hopt _ (hgot m hmm)) (firstIndices flags) (hopt _ hown)
        have hres : msgs.foldl (after scatterMin (firstIndices flags)) (firstIndices flags) p i = some n' := by
          rw [k2]
          obtain ⟨q, j, hq, hpos, hqj⟩ := hn'
          obtain ⟨c', hc', hib', hce', hk'⟩ := of_pos hpos
          by_cases hqp : q = p
          · subst hqp
            left
            rw [← ent_unique (hv.once q hq) hc' hc hce', hk', Option.some.injEq] at hk
            rw [← hk]; exact hqj
          · right
            have hg : (if ibOnly then Copy.ib else all) c = true := by
              cases hb : ibOnly with
              | false => rfl
              | true =>
                simp only [if_true]
                cases hcb : c.ib with
                | true => rfl
                | false =>
                  have := hv.restricted hb p hp c hc hcb
                  rw [this] at hk; simp at hk
            refine ⟨⟨q, p, c', c⟩, (hm.2 _).2 ⟨hq, hp, hqp, hc', hc, hce', hib', hg⟩, ?_⟩
            unfold got
            rw [if_pos ⟨rfl, rfl⟩, hk']
            exact hqj
        rw [hres, Option.some.injEq]
        constructor
        · rintro rfl; exact ⟨hshared, hn'⟩
        · rintro ⟨_, h⟩; exact huniq hn' h
      · constructor
        · intro h
          exfalso
          have hnone : ∀ o : Option Nat, (∀ v, o = some v → Given L (firstIndices flags) c.ent k v) → o = none := by
            intro o ho
            cases o with
            | none => rfl
            | some v =>
              obtain ⟨q, j, hq, hpos, hqj⟩ := ho v rfl
              exact absurd (hfirst hq hpos hqj).2 hshared
          obtain ⟨k1, k2⟩ := foldl_min hv (firstIndices flags) hp hc hk n msgs (fits_ib hv hm)
            (fun m hmm hd => by rw [← hd]; exact ((hm.2 m).1 hmm).2.2.2.2.1) (fun m hmm => Or.inl (hnone _ (hgot m hmm))) (firstIndices flags)
            (Or.inl (hnone _ hown))
          rcases k2.1 h with h | ⟨m, hmm, h⟩
          · rw [hnone _ hown] at h; cases h
          · rw [hnone _ (hgot m hmm)] at h; cases h
        · intro h; exact absurd h.1 hshared
    · rw [if_neg h1]
      refine ⟨_, rfl, ?_⟩
      intro p hp c hc k i n hk
      have hno : ¬ SharedEntity L c.ent := by
        rintro ⟨q, q', hqq, ⟨hq, _⟩, ⟨hq', _⟩⟩; omega
      constructor
      · intro h
        exact absurd ((hflags hp hc (List.mem_of_getElem? hk)).1 ((firstIndices_iff _ _ _ _).1 h).1).2 hno
      · intro h; exact absurd h.1 hno
  obtain ⟨num, hnum1, hnum2⟩ := hnum
  refine ⟨fillIndexSet L (rankPartition L rmsgs) num, ?_, fun e k => if h : ∃ n, Given L (firstIndices flags) e k n then h.choose else 0,
    start flags L.procs, ?_, ?_, ?_, ?_⟩
  · unfold createIndexSet
    simp only
    rw [hsh, hfl, hnum1, Option.map_some]
  · intro p hp g i a
    have hG : ∀ {e k n : Nat}, Given L (firstIndices flags) e k n → (if h : ∃ n, Given L (firstIndices flags) e k n then h.choose else 0) = n := by
      intro e k n h
      have hh : ∃ n, Given L (firstIndices flags) e k n := ⟨n, h⟩
      rw [dif_pos hh]; exact huniq hh.choose_spec h
    have hownd : ∀ c ∈ L.copies p, ∀ i ∈ c.dofs, (owned p (rankPartition L rmsgs p) i = true ↔ Lowest L c.ent p) := by
      intro c hc i hi
      obtain ⟨q, h1, h2⟩ := rankPartition_eq hv hr hp hc hi
      unfold owned
      rw [h2]
      constructor
      · intro h
        have : q = p := by simpa using h
        rw [← this]; exact h1
      · intro h; rw [lowest_unique h1 h]; simp
    unfold fillIndexSet
    rw [List.mem_filterMap]
    constructor
    · rintro ⟨i', hi', h⟩
      rw [Option.map_eq_some_iff] at h
      obtain ⟨n, hn, h⟩ := h
      simp only [Prod.mk.injEq] at h
      obtain ⟨rfl, rfl, rfl⟩ := h
      obtain ⟨c, hc, k, hk⟩ := exists_pos hv hp (List.mem_range.1 hi')
      obtain ⟨h1, h2⟩ := (hnum2 p hp c hc k i' n hk).1 hn
      exact ⟨c, hc, k, hk, h1, (hG h2).symm, hownd c hc i' (List.mem_of_getElem? hk)⟩
    · rintro ⟨c, hc, k, hk, h1, h2, h3⟩
      have hkn : k < ndof c.ent := by
        have hlt : k < c.dofs.length := (List.getElem?_eq_some_iff.1 hk).1
        rcases hv.dofs p hp c hc with h | h
        · omega
        · rw [h.2] at hlt; simp at hlt
      obtain ⟨n, hn⟩ := hex (hv.known p hp c hc) hkn h1
      beta_reduce at h2
      rw [hG hn] at h2
      subst h2
      refine ⟨i, List.mem_range.2 (pos_lt hv hp hc (List.mem_of_getElem? hk)), ?_⟩
      rw [(hnum2 p hp c hc k i g hk).2 ⟨h1, hn⟩, Option.map_some, Option.some.injEq, Prod.mk.injEq, Prod.mk.injEq]
      refine ⟨rfl, rfl, ?_⟩
      rw [Bool.eq_iff_iff, hownd c hc i (List.mem_of_getElem? hk), h3]
  · intro p
    unfold fillIndexSet
    have hmap : ((List.range (L.size p)).filterMap fun i => (num p i).map fun g => (g, i, owned p (rankPartition L rmsgs p) i)).map (fun x => x.2.1) =
        (List.range (L.size p)).filter fun i => (num p i).isSome := by
      generalize List.range (L.size p) = l
      induction l with
      | nil => rfl
      | cons i l ih =>
        rw [List.filterMap_cons, List.filter_cons]
        cases h : num p i with
        | none => simpa using ih
        | some g => simpa using ih
    rw [hmap]
    exact List.Pairwise.filter _ List.pairwise_lt_range
  · intro e he k hk e' he' k' hk' hse hse' hG
    have h := hex he hk hse
    have h' := hex he' hk' hse'
    beta_reduce at hG
    rw [dif_pos h, dif_pos h'] at hG
    obtain ⟨q, i, hq, hpos, hn⟩ := h.choose_spec
    obtain ⟨q', i', hq', hpos', hn'⟩ := h'.choose_spec
    rw [← hG] at hn'
    obtain ⟨rfl, rfl⟩ := firstIndices_inj flags hn hn'
    exact pos_inj hv hq hpos hpos'
  · intro n
    rw [firstIndices_range]
    constructor
    · rintro ⟨p, hp, i, hi⟩
      have hlt : i < L.size p := by
        rw [← hlen]
        exact (List.getElem?_eq_some_iff.1 ((firstIndices_iff _ _ _ _).1 hi).1).1
      obtain ⟨c, hc, k, hk⟩ := exists_pos hv hp hlt
      have hl := (hflags hp hc (List.mem_of_getElem? hk)).1 ((firstIndices_iff _ _ _ _).1 hi).1
      obtain ⟨c', hc', he', hib'⟩ := hl.1.2.1
      have := ent_unique (hv.once p hp) hc' hc he'
      subst this
      have hpos : pos L Copy.ib p c'.ent k = some i := by rw [pos_eq hv hp hc hib']; exact hk
      have hg : Given L (firstIndices flags) c'.ent k n := ⟨p, i, hp, hpos, hi⟩
      have hh : ∃ n, Given L (firstIndices flags) c'.ent k n := ⟨n, hg⟩
      refine ⟨c'.ent, (ndof_of_pos hv hp hpos).1, k, (ndof_of_pos hv hp hpos).2, hl.2, ?_⟩
      beta_reduce
      rw [dif_pos hh]
      exact huniq hh.choose_spec hg
    · rintro ⟨e, he, k, hk, hse, hG⟩
      have h := hex he hk hse
      beta_reduce at hG
      rw [dif_pos h] at hG
      obtain ⟨q, i, hq, _, hn⟩ := h.choose_spec
      rw [hG] at hn
      exact ⟨q, hq, i, hn⟩

/-- C147. Every global index has the attribute owner on exactly one process, and exists on at least two. -/
theorem C147_owner (hv : Valid L ents ndof ibOnly) {rmsgs smsgs : List Msg} {msgs : List Message} (hr : Interface L ibOnly rmsgs)
    (hs : AllMessages L ibOnly smsgs) {has : Msg → Bool} (hhas : ∀ m ∈ smsgs, has m = true ↔ ∃ c ∈ L.copies m.src, c.ent = m.copy.ent ∧ c.dofs ≠ [])
    (hm : Exchange L Copy.ib (if ibOnly then Copy.ib else all) msgs) {S : Nat → List (Nat × Nat × Bool)}
    (hS : createIndexSet L has rmsgs smsgs msgs = some S) {p g i : Nat} {a : Bool} (hp : p < L.procs) (hg : (g, i, a) ∈ S p) :
    (∃ q, q < L.procs ∧ (∃ j, (g, j, true) ∈ S q) ∧ ∀ q', q' < L.procs → (∃ j, (g, j, true) ∈ S q') → q' = q) ∧
      ∃ q, q < L.procs ∧ q ≠ p ∧ ∃ j b, (g, j, b) ∈ S q := by
  obtain ⟨S', h1, G, N, h2, _, h3, _⟩ := C147_index_set hv hr hs hhas hm
  rw [hS, Option.some.injEq] at h1
  subst h1
  obtain ⟨c, hc, k, hk, hse, rfl, _⟩ := (h2 p hp g i a).1 hg
  have hlen : ∀ q, q < L.procs → ∀ c' ∈ L.copies q, ∀ k j : Nat, c'.dofs[k]? = some j → k < ndof c'.ent := by
    intro q hq c' hc' k j hk
    have hlt : k < c'.dofs.length := (List.getElem?_eq_some_iff.1 hk).1
    rcases hv.dofs q hq c' hc' with h | h
    · omega
    · rw [h.2] at hlt; simp at hlt
  have hkn := hlen p hp c hc k i hk
  have hmem : ∀ q, q < L.procs → ∀ c' ∈ L.copies q, c'.ent = c.ent → c'.dofs ≠ [] → ∃ j : Nat, c'.dofs[k]? = some j := by
    intro q hq c' hc' he hd
    have : c'.dofs.length = ndof c'.ent := by
      rcases hv.dofs q hq c' hc' with h | h
      · exact h
      · exact absurd h.2 hd
    exact ⟨_, List.getElem?_eq_getElem (by rw [this, he]; exact hkn)⟩
  constructor
  · obtain ⟨q, hq⟩ := exists_lowest (hv.somewhere _ (hv.known p hp c hc))
    have ⟨hlt, ⟨c', hc', hce, hib⟩, _⟩ := hq
    refine ⟨q, hlt, ?_, ?_⟩
    · have hd : c'.dofs ≠ [] := by
        intro h
        rcases hv.dofs q hlt c' hc' with h' | h'
        · rw [h, List.length_nil, hce] at h'; omega
        · rw [h'.1] at hib; cases hib
      obtain ⟨j, hj⟩ := hmem q hlt c' hc' hce hd
      exact ⟨j, (h2 q hlt _ _ _).2 ⟨c', hc', k, hj, by rw [hce]; exact hse, by rw [hce], by rw [hce]; exact iff_of_true rfl hq⟩⟩
    · rintro q' hq' ⟨j, hj⟩
      obtain ⟨c'', hc'', k'', hk'', hse'', hG, hl⟩ := (h2 q' hq' _ _ _).1 hj
      obtain ⟨he, rfl⟩ := h3 _ (hv.known p hp c hc) k hkn _ (hv.known q' hq' c'' hc'') k'' (hlen q' hq' c'' hc'' k'' j hk'') hse hse'' hG
      rw [← he] at hl
      exact lowest_unique (hl.1 rfl) hq
  · obtain ⟨q, q', hqq, h, h'⟩ := hse
    have : ∃ q, q ≠ p ∧ HasDofs L q c.ent := by
      by_cases hqp : q = p
      · exact ⟨q', fun h => hqq (hqp.trans h.symm), h'⟩
      · exact ⟨q, hqp, h⟩
    obtain ⟨r, hrp, hr, c', hc', hce, hd⟩ := this
    obtain ⟨j, hj⟩ := hmem r hr c' hc' hce hd
    classical
    exact ⟨r, hr, hrp, j, decide (Lowest L c'.ent r), (h2 r hr _ _ _).2 ⟨c', hc', k, hj, by rw [hce]; exact ⟨q, q', hqq, h, h'⟩, by rw [hce], decide_eq_true_iff⟩⟩

end

/-! ### Example -/

/-- Three processes in a row with one cell each (entities 0, 1, 2) and the vertices 10, 11, 12, 13 with one DOF each. Process 1 also stores overlap copies of
cell 2 and vertex 13; cells have no DOFs. -/
def amgLayout : Layout where
  procs := 3
  copies := fun p => match p with
    | 0 => [⟨0, true, []⟩, ⟨10, true, [0]⟩, ⟨11, true, [1]⟩]
    | 1 => [⟨1, true, []⟩, ⟨2, false, []⟩, ⟨12, true, [0]⟩, ⟨13, false, [1]⟩, ⟨11, true, [2]⟩]
    | 2 => [⟨2, true, []⟩, ⟨12, true, [1]⟩, ⟨13, true, [0]⟩]
    | _ => []
  size := fun p => match p with
    | 0 => 2
    | 1 => 3
    | 2 => 2
    | _ => 0

private theorem amgValid : Valid amgLayout [0, 1, 2, 10, 11, 12, 13] (fun e => if e < 10 then 0 else 1) false where
  ranks := by decide
  positions := by decide
  once := by decide
  distinct := by decide
  known := by decide
  somewhere := by
    intro e he
    simp only [List.mem_cons, List.not_mem_nil, or_false] at he
    rcases he with rfl | rfl | rfl | rfl | rfl | rfl | rfl
    · exact ⟨0, by decide, ⟨0, true, []⟩, by decide, rfl, rfl⟩
    · exact ⟨1, by decide, ⟨1, true, []⟩, by decide, rfl, rfl⟩
    · exact ⟨2, by decide, ⟨2, true, []⟩, by decide, rfl, rfl⟩
    · exact ⟨0, by decide, ⟨10, true, [0]⟩, by decide, rfl, rfl⟩
    · exact ⟨0, by decide, ⟨11, true, [1]⟩, by decide, rfl, rfl⟩
    · exact ⟨1, by decide, ⟨12, true, [0]⟩, by decide, rfl, rfl⟩
    · exact ⟨2, by decide, ⟨13, true, [0]⟩, by decide, rfl, rfl⟩
  dofs := by decide
  restricted := by intro h; cases h

/-- All pairs of copies of the example on different processes. -/
def amgMessages : List Message :=
  [(0, 1), (0, 2), (1, 0), (1, 2), (2, 0), (2, 1)].flatMap fun (p, q) => (amgLayout.copies p).flatMap fun c =>
    ((amgLayout.copies q).filter fun c' => c.ent == c'.ent).map fun c' => ⟨p, q, c, c'⟩

private theorem amgMessages_iff (m : Message) : m ∈ amgMessages ↔ m.src < 3 ∧ m.dst < 3 ∧ m.src ≠ m.dst ∧ m.sent ∈ amgLayout.copies m.src ∧
    m.received ∈ amgLayout.copies m.dst ∧ m.sent.ent = m.received.ent := by
  unfold amgMessages
  simp only [List.mem_flatMap, List.mem_map, List.mem_filter, beq_iff_eq]
  constructor
  · rintro ⟨⟨p, q⟩, hpq, c, hc, c', ⟨hc', he⟩, rfl⟩
    have key : ∀ x ∈ [(0, 1), (0, 2), (1, 0), (1, 2), (2, 0), (2, 1)], x.1 < 3 ∧ x.2 < 3 ∧ x.1 ≠ x.2 := by decide
    exact ⟨(key _ hpq).1, (key _ hpq).2.1, (key _ hpq).2.2, hc, hc', he⟩
  · rintro ⟨h1, h2, h3, h4, h5, h6⟩
    refine ⟨(m.src, m.dst), ?_, m.sent, h4, m.received, ⟨h5, h6⟩, rfl⟩
    simp only [List.mem_cons, Prod.mk.injEq, List.not_mem_nil, or_false]
    omega

private theorem amgExchange : Exchange amgLayout Copy.ib all (amgMessages.filter fun m => m.sent.ib) := by
  refine ⟨by decide, ?_⟩
  intro m
  rw [List.mem_filter, amgMessages_iff]
  simp only [all, and_true]
  exact ⟨fun ⟨⟨a, b, c, d, e, f⟩, g⟩ => ⟨a, b, c, d, e, f, g⟩, fun ⟨a, b, c, d, e, f, g⟩ => ⟨⟨a, b, c, d, e, f⟩, g⟩⟩

private theorem amgInterface : Interface amgLayout false ((amgMessages.filter fun m => m.sent.ib).map fun m => ⟨m.src, m.dst, m.received⟩) := by
  intro m
  simp only [List.mem_map, List.mem_filter, amgMessages_iff]
  constructor
  · rintro ⟨m', ⟨⟨a, b, c, d, e, f⟩, g⟩, rfl⟩
    exact ⟨a, b, c, e, ⟨m'.sent, d, f, g⟩, fun h => by cases h⟩
  · rintro ⟨a, b, c, d, ⟨c', hc', he, hib⟩, _⟩
    exact ⟨⟨m.src, m.dst, c', m.copy⟩, ⟨⟨a, b, c, hc', d, he⟩, hib⟩, rfl⟩

private theorem amgAll : AllMessages amgLayout false (amgMessages.map fun m => ⟨m.src, m.dst, m.received⟩) := by
  intro m
  simp only [List.mem_map, amgMessages_iff]
  constructor
  · rintro ⟨m', ⟨a, b, c, d, e, f⟩, rfl⟩
    exact ⟨a, b, c, e, fun h => (by cases h), m'.sent, d, f, fun h => by cases h⟩
  · rintro ⟨a, b, c, d, _, c', hc', he, _⟩
    exact ⟨⟨m.src, m.dst, c', m.copy⟩, ⟨a, b, c, hc', d, he⟩, rfl⟩

/- The hypotheses of the theorem are met. -/
example : ∃ S, createIndexSet amgLayout (fun m => decide (10 ≤ m.copy.ent)) ((amgMessages.filter fun m => m.sent.ib).map fun m => ⟨m.src, m.dst, m.received⟩)
    (amgMessages.map fun m => ⟨m.src, m.dst, m.received⟩) (amgMessages.filter fun m => m.sent.ib) = some S := by
  obtain ⟨S, h, _⟩ := C147_index_set amgValid amgInterface amgAll (has := fun m => decide (10 ≤ m.copy.ent)) (by
    intro m hm
    obtain ⟨h1, h2, _, h4, _, c, hc, he, _⟩ := (amgAll m).1 hm
    have key : ∀ p < 3, ∀ c ∈ amgLayout.copies p, (10 ≤ c.ent ↔ c.dofs ≠ []) := by decide
    rw [decide_eq_true_iff, ← he]
    constructor
    · intro h; exact ⟨c, hc, rfl, (key _ h1 c hc).1 h⟩
    · rintro ⟨c', hc', he', hd⟩
      rw [← he']; exact (key _ h1 c' hc').2 hd) amgExchange
  exact ⟨S, h⟩

/- Vertex 11 is owned by process 0, vertex 12 by process 1, vertex 13 by process 2; vertex 10 is not shared. -/
example : ((createIndexSet amgLayout (fun m => decide (10 ≤ m.copy.ent)) ((amgMessages.filter fun m => m.sent.ib).map fun m => ⟨m.src, m.dst, m.received⟩)
    (amgMessages.map fun m => ⟨m.src, m.dst, m.received⟩) (amgMessages.filter fun m => m.sent.ib)).map fun S => (List.range 3).map S) =
    some [[(0, 1, true)], [(1, 0, true), (2, 1, false), (0, 2, false)], [(2, 0, true), (1, 1, false)]] := by decide +kernel

end Verif
