import Verif.Proofs.Ordering
namespace Verif.Orderings
open PSums

theorem occurs_lex {n : Nat} {child : Nat → OrdTree} (hg : (OrdTree.lex true n child).Good) (c : Nat) (s : List Nat) :
    (OrdTree.lex true n child).Occurs (c :: s) ↔ c < n ∧ (child c).Occurs s := by
  constructor
  · rintro ⟨path, d, rest, hd, hm⟩
    cases path with
    | nil => simp [OrdTree.IsDof] at hd
    | cons c' path =>
      obtain ⟨hcn, hd⟩ := hd
      obtain ⟨b, r, h1, h2⟩ := mapIndex_ok _ (hg.2 c' hcn) path d hd
      rw [mapIndex_lex hg hcn h1] at hm
      simp at hm
      obtain ⟨rfl, h3⟩ := hm
      exact ⟨hcn, path, d, rest, hd, by rw [h1, h3]⟩
  · rintro ⟨hcn, path, d, rest, hd, hm⟩
    obtain ⟨b, r, h1, h2⟩ := mapIndex_ok _ (hg.2 c hcn) path d hd
    refine ⟨c :: path, d, rest, ⟨hcn, hd⟩, ?_⟩
    rw [mapIndex_lex hg hcn h1]
    rw [h1] at hm; simp at hm
    simp [hm]

theorem occurs_chunked {bs : Nat} {child : OrdTree} (hg : (OrdTree.chunked bs child).Good) (a b : Nat) (s : List Nat) :
    (OrdTree.chunked bs child).Occurs (a :: b :: s) ↔ b < bs ∧ child.Occurs ((bs * a + b) :: s) := by
  have hbs : 0 < bs := hg.1
  constructor
  · rintro ⟨path, d, rest, hd, hm⟩
    obtain ⟨k, r, h1, h2⟩ := mapIndex_ok _ hg.2.2 path d hd
    rw [mapIndex_chunked hg h1] at hm
    simp at hm
    obtain ⟨rfl, rfl, rfl⟩ := hm
    exact ⟨Nat.mod_lt _ hbs, path, d, rest, hd, by rw [h1, Nat.div_add_mod]; rfl⟩
  · rintro ⟨hb, path, d, rest, hd, hm⟩
    refine ⟨path, d, rest, hd, ?_⟩
    rw [mapIndex_chunked hg (b := bs * a + b) (r := s ++ rest) (by simpa using hm)]
    rw [Nat.mul_add_div hbs, Nat.div_eq_of_lt hb, Nat.mul_add_mod, Nat.mod_eq_of_lt hb]
    rfl

theorem occurs_chunked1 {bs : Nat} {child : OrdTree} (hg : (OrdTree.chunked bs child).Good) (a : Nat) :
    (OrdTree.chunked bs child).Occurs [a] ↔ ∃ b, (OrdTree.chunked bs child).Occurs [a, b] := by
  constructor
  · rintro ⟨path, d, rest, hd, hm⟩
    obtain ⟨k, r, h1, h2⟩ := mapIndex_ok _ hg.2.2 path d hd
    have hm' := mapIndex_chunked hg h1
    rw [hm'] at hm; simp at hm
    exact ⟨k % bs, path, d, r, hd, by rw [hm', hm.1]; rfl⟩
  · rintro ⟨b, path, d, rest, hd, hm⟩
    exact ⟨path, d, b :: rest, hd, hm⟩

theorem occurs_permuted {before : List Nat} {child : OrdTree}
    (hg : (OrdTree.permuted before none child).Good) (s : List Nat) :
    (OrdTree.permuted before none child).Occurs s ↔ child.Occurs s := by
  have key : ∀ path d, child.IsDof path d →
      (OrdTree.permuted before none child).mapIndex path d = child.mapIndex path d := by
    intro path d hd
    obtain ⟨k, r, h1, h2⟩ := mapIndex_ok _ hg.2.2 path d hd
    rw [mapIndex_permuted hg h1 h2, h1]; rfl
  constructor
  · rintro ⟨path, d, rest, hd, hm⟩
    exact ⟨path, d, rest, hd, by rw [← key path d hd]; exact hm⟩
  · rintro ⟨path, d, rest, hd, hm⟩
    exact ⟨path, d, rest, hd, by rw [key path d hd]; exact hm⟩

theorem sized_onto (o : OrdTree) (hg : o.Good) (hs : o.Sized) (x : Nat) : o.Occurs [x] ↔ x < o.blocks := by
  induction o generalizing x with
  | leaf blocks table => exact hs.1 x
  | lex blocked n child ih =>
    obtain ⟨rfl, hs⟩ := hs
    rw [occurs_lex hg]
    simp only [OrdTree.blocks, if_true]
    exact ⟨fun h => h.1, fun h => ⟨h, (hs x h).2⟩⟩
  | inter => exact hs.elim
  | chunked bs child ih =>
    obtain ⟨hbs, ⟨q, hq⟩, hgc⟩ := hg
    rw [occurs_chunked1 ⟨hbs, ⟨q, hq⟩, hgc⟩]
    simp only [OrdTree.blocks, hq, Nat.mul_div_cancel_left _ hbs]
    constructor
    · rintro ⟨b, h⟩
      rw [occurs_chunked ⟨hbs, ⟨q, hq⟩, hgc⟩, ih hgc hs, hq] at h
      by_contra hx
      have : bs * q ≤ bs * x := Nat.mul_le_mul_left _ (by omega)
      omega
    · intro h
      refine ⟨0, ?_⟩
      rw [occurs_chunked ⟨hbs, ⟨q, hq⟩, hgc⟩, ih hgc hs, hq]
      exact ⟨hbs, by simpa using (Nat.mul_lt_mul_left hbs).2 h⟩
  | permuted before after child ih =>
    obtain ⟨rfl, hs⟩ := hs
    rw [occurs_permuted hg]
    exact ih hg.2.2 hs x

theorem depth_next {o : OrdTree} {m : Nat} (hd : o.DepthLe m) {s : List Nat} (hl : s.length = m) (x : Nat) :
    ¬ o.Occurs (s ++ [x]) := by
  rintro ⟨path, d, rest, h1, h2⟩
  have := hd path d _ h1 h2
  simp at this
  omega

theorem occurs_prefix {o : OrdTree} {s t : List Nat} (h : o.Occurs (s ++ t)) : o.Occurs s := by
  obtain ⟨path, d, rest, h1, h2⟩ := h
  exact ⟨path, d, t ++ rest, h1, by rw [h2, List.append_assoc]⟩

theorem occurs_depth_pos {o : OrdTree} (hg : o.Good) {m : Nat} (hd : o.DepthLe m) {s : List Nat} (h : o.Occurs s) :
    0 < m := by
  obtain ⟨path, d, rest, h1, h2⟩ := h
  obtain ⟨b, r, h3, _⟩ := mapIndex_ok o hg path d h1
  have := hd path d _ h1 h3
  simp at this; omega

theorem mem_leafNext {blocks : Nat} {table : List (List Nat)} (s : List Nat) (x : Nat) :
    x ∈ leafNext table s ↔ (OrdTree.leaf blocks table).Occurs (s ++ [x]) := by
  simp only [leafNext, List.mem_dedup, List.mem_filterMap]
  constructor
  · rintro ⟨ci, hci, h⟩
    split at h
    · rename_i hp
      rw [List.isPrefixOf_iff_prefix] at hp
      obtain ⟨t, rfl⟩ := hp
      obtain ⟨d, hd, he⟩ := List.getElem_of_mem hci
      rw [List.getElem?_append_right (Nat.le_refl _)] at h
      simp at h
      cases t with
      | nil => simp at h
      | cons y t =>
        simp at h; subst h
        exact ⟨[], d, t, hd, by simp [OrdTree.mapIndex, List.getElem?_eq_getElem hd, he]⟩
    · simp at h
  · rintro ⟨path, d, rest, hd, hm⟩
    cases path with
    | nil =>
      have hd : d < table.length := hd
      simp [OrdTree.mapIndex, List.getElem?_eq_getElem hd] at hm
      refine ⟨table[d], List.getElem_mem hd, ?_⟩
      rw [hm, if_pos (by rw [List.isPrefixOf_iff_prefix]; exact List.prefix_append _ _),
        List.getElem?_append_right (Nat.le_refl _)]
      simp
    | cons => simp [OrdTree.IsDof] at hd

theorem nodup_length_of_lt {l : List Nat} {k : Nat} (hn : l.Nodup) (h : ∀ x, x ∈ l ↔ x < k) : l.length = k := by
  have : l.Perm (List.range k) := (List.perm_ext_iff_of_nodup hn List.nodup_range).2 (by simpa using h)
  simpa using this.length_eq

theorem size_ok (o : OrdTree) (m : Nat) (hg : o.Good) (hs : o.Sized) (hd : o.DepthLe m) (s : List Nat)
    (ho : o.Occurs s) :
    ∃ n, o.size m s = .ok n ∧ ∀ x, o.Occurs (s ++ [x]) ↔ x < n := by
  induction o generalizing s with
  | leaf blocks table =>
    simp only [OrdTree.size]
    split
    · rename_i hl
      exact ⟨0, rfl, fun x => ⟨fun h => absurd h (depth_next hd hl x), fun h => by omega⟩⟩
    · split
      · rename_i hl hs0
        subst hs0
        exact ⟨blocks, rfl, hs.1⟩
      · rename_i hl hs0
        refine ⟨_, rfl, ?_⟩
        obtain ⟨k, hk⟩ := hs.2 s hs0
        have : (leafNext table s).length = k :=
          nodup_length_of_lt (List.nodup_dedup _) (fun x => by rw [mem_leafNext (blocks := blocks), hk])
        rw [this]; exact hk
  | lex blocked n child ih =>
    have hs' := hs
    obtain ⟨rfl, hs'⟩ := hs'
    obtain ⟨inf, hi⟩ := update_ok _ hg
    have hmp := occurs_depth_pos hg hd ho
    simp only [OrdTree.size, hi.upd]
    simp only [bind, Except.bind]
    split
    · rename_i hl
      exact ⟨0, rfl, fun x => ⟨fun h => absurd h (depth_next hd hl x), fun h => by omega⟩⟩
    · cases s with
      | nil =>
        refine ⟨_, rfl, fun x => ?_⟩
        rw [hi.bc]; exact sized_onto _ hg hs x
      | cons c s =>
        obtain ⟨hcn, hoc⟩ := (occurs_lex hg c s).1 ho
        have hdc : (child c).DepthLe m := by
          intro path d ci h1 h2
          obtain ⟨b, r, h3, h4⟩ := mapIndex_ok _ (hg.2 c hcn) path d h1
          rw [h3] at h2; simp at h2; subst h2
          have := hd (c :: path) d _ ⟨hcn, h1⟩ (mapIndex_lex hg hcn h3)
          simp at this ⊢; omega
        obtain ⟨k, hk1, hk2⟩ := ih c (hg.2 c hcn) (hs' c hcn).1 hdc s hoc
        refine ⟨k, by simpa [Nat.not_le.2 hcn] using hk1, fun x => ?_⟩
        rw [List.cons_append, occurs_lex hg]
        rw [← hk2]
        exact ⟨fun h => h.2, fun h => ⟨hcn, h⟩⟩
  | inter => exact hs.elim
  | chunked bs child ih =>
    obtain ⟨inf, hi⟩ := update_ok _ hg
    simp only [OrdTree.size, hi.upd]
    simp only [bind, Except.bind]
    match s, ho with
    | [], ho =>
      refine ⟨_, rfl, fun x => ?_⟩
      rw [hi.bc]; exact sized_onto _ hg hs x
    | [a], ho =>
      refine ⟨_, rfl, fun x => ?_⟩
      have ha := (sized_onto _ hg hs a).1 ho
      have hq := hg.2.1
      obtain ⟨q, hq⟩ := hq
      simp only [OrdTree.blocks, hq, Nat.mul_div_cancel_left _ hg.1] at ha
      rw [List.singleton_append, occurs_chunked hg, sized_onto _ hg.2.2 hs, hq]
      refine ⟨fun h => h.1, fun h => ⟨h, ?_⟩⟩
      calc bs * a + x < bs * a + bs := by omega
        _ = bs * (a + 1) := by rw [Nat.mul_add, Nat.mul_one]
        _ ≤ bs * q := Nat.mul_le_mul_left _ ha
    | a :: b :: s, ho =>
      obtain ⟨hb, hoc⟩ := (occurs_chunked hg a b s).1 ho
      have hdc : child.DepthLe m := by
        intro path d ci h1 h2
        obtain ⟨k, r, h3, h4⟩ := mapIndex_ok _ hg.2.2 path d h1
        rw [h3] at h2; simp at h2; subst h2
        have := hd path d _ h1 (mapIndex_chunked hg h3)
        simp at this ⊢; omega
      obtain ⟨k, hk1, hk2⟩ := ih hg.2.2 hs hdc _ hoc
      refine ⟨k, hk1, fun x => ?_⟩
      rw [List.cons_append, List.cons_append, occurs_chunked hg, ← hk2]
      exact ⟨fun h => h.2, fun h => ⟨hb, h⟩⟩
  | permuted before after child ih =>
    have hs' := hs
    obtain ⟨rfl, hs'⟩ := hs'
    obtain ⟨inf, hi⟩ := update_ok _ hg
    have hoc := (occurs_permuted hg s).1 ho
    have hdc : child.DepthLe m := by
      intro path d ci h1 h2
      obtain ⟨k, r, h3, h4⟩ := mapIndex_ok _ hg.2.2 path d h1
      rw [h3] at h2; simp at h2; subst h2
      have := hd path d _ h1 (mapIndex_permuted hg h3 h4)
      simp at this ⊢; omega
    obtain ⟨k, hk1, hk2⟩ := ih hg.2.2 hs' hdc _ hoc
    refine ⟨k, ?_, fun x => by rw [occurs_permuted hg]; exact hk2 x⟩
    simp only [OrdTree.size, hi.upd]
    simp only [bind, Except.bind]
    cases s with
    | nil => exact hk1
    | cons b s =>
      have hb : b < child.blocks := (sized_onto _ hg.2.2 hs' b).1 (occurs_prefix (t := s) hoc)
      have hbc : inf.blockCount = child.blocks := hi.bc
      simp [effectivePerm, getOr, hbc, hb, hk1]

end Verif.Orderings
