import Verif.Spec.DuneFunctionsSpace
/-
Helper lemmas for C201-C204.
-/
namespace Verif.DuneFunctionsSpace

theorem foldlM_flat {σ α : Type} (f : σ → α → Option σ) (es : List (List α)) :
    ∀ s : σ, es.foldlM (fun s e => e.foldlM f s) s = es.flatten.foldlM f s := by
  induction es with
  | nil => intro s; rfl
  | cons e es ih =>
    intro s
    rw [List.foldlM_cons, List.flatten_cons, List.foldlM_append]
    congr 1
    funext s'
    exact ih s'

theorem count_fold (B : Basis) : ∀ (ds : List LocalDof) (n : Nat → Nat → Nat), (∀ d ∈ ds, d.ent < B.count d.gt) →
    ∃ n', ds.foldlM (countDof B) n = some n' ∧
      ∀ gt ent m, n' gt ent ≤ m ↔ n gt ent ≤ m ∧ ∀ d ∈ ds, d.On gt ent → d.k < m := by
  intro ds
  induction ds with
  | nil => intro n _; exact ⟨n, rfl, fun gt ent m => by simp⟩
  | cons d ds ih =>
    intro n h
    obtain ⟨n', h1, h2⟩ := ih (fun gt ent => if gt = d.gt ∧ ent = d.ent then max (n gt ent) (d.k + 1) else n gt ent)
      (fun x hx => h x (List.mem_cons_of_mem _ hx))
    refine ⟨n', ?_, ?_⟩
    · rw [List.foldlM_cons]
      have : countDof B n d = some fun gt ent => if gt = d.gt ∧ ent = d.ent then max (n gt ent) (d.k + 1) else n gt ent := by
        unfold countDof; rw [if_pos (h d (List.mem_cons_self ..))]
      rw [this]
      exact h1
    · intro gt ent m
      rw [h2]
      simp only [List.mem_cons, forall_eq_or_imp]
      by_cases hk : gt = d.gt ∧ ent = d.ent
      · have hon : d.On gt ent := ⟨hk.1.symm, hk.2.symm⟩
        rw [if_pos hk]
        constructor
        · rintro ⟨a, b⟩; exact ⟨by omega, fun _ => by omega, b⟩
        · rintro ⟨a, b, c⟩; have := b hon; exact ⟨by omega, c⟩
      · have hon : ¬ d.On gt ent := fun x => hk ⟨x.1.symm, x.2.symm⟩
        rw [if_neg hk]
        constructor
        · rintro ⟨a, b⟩; exact ⟨a, fun x => absurd x hon, b⟩
        · rintro ⟨a, _, c⟩; exact ⟨a, c⟩

/-- The local DOF has the key. -/
def hasKey (gt ent k : Nat) (d : LocalDof) : Bool := d.gt == gt && d.ent == ent && d.k == k

theorem hasKey_iff {gt ent k : Nat} {d : LocalDof} : hasKey gt ent k d = true ↔ d.gt = gt ∧ d.ent = ent ∧ d.k = k := by
  simp [hasKey, and_assoc]

theorem set_fold (B : Basis) : ∀ (ds : List LocalDof) (t : Nat → Nat → List (Option Nat)),
    (∀ d ∈ ds, d.ent < B.count d.gt ∧ d.k < (t d.gt d.ent).length) →
    ∃ t', ds.foldlM (setIndex B) t = some t' ∧ ∀ gt ent, (t' gt ent).length = (t gt ent).length ∧
      ∀ k, (t' gt ent)[k]? = match (ds.filter (hasKey gt ent k)).getLast? with
        | some d => some (some d.index)
        | none => (t gt ent)[k]? := by
  intro ds
  induction ds with
  | nil => intro t _; exact ⟨t, rfl, fun gt ent => ⟨rfl, fun k => rfl⟩⟩
  | cons d ds ih =>
    intro t h
    have hd := h d (List.mem_cons_self ..)
    have hlen : ∀ gt ent, (if gt = d.gt ∧ ent = d.ent then (t gt ent).set d.k (some d.index) else t gt ent).length
        = (t gt ent).length := by
      intro gt ent; split <;> simp
    obtain ⟨t', h1, h2⟩ := ih (fun gt ent => if gt = d.gt ∧ ent = d.ent then (t gt ent).set d.k (some d.index) else t gt ent)
      (fun x hx => ⟨(h x (List.mem_cons_of_mem _ hx)).1, by rw [hlen]; exact (h x (List.mem_cons_of_mem _ hx)).2⟩)
    refine ⟨t', ?_, ?_⟩
    · rw [List.foldlM_cons]
      have : setIndex B t d = some fun gt ent =>
          if gt = d.gt ∧ ent = d.ent then (t gt ent).set d.k (some d.index) else t gt ent := by
        unfold setIndex; rw [if_pos hd]
      rw [this]
      exact h1
    · intro gt ent
      obtain ⟨a, b⟩ := h2 gt ent
      refine ⟨by rw [a, hlen], fun k => ?_⟩
      rw [b k]
      by_cases hk : hasKey gt ent k d = true
      · obtain ⟨e1, e2, e3⟩ := hasKey_iff.mp hk
        rw [List.filter_cons_of_pos hk, List.getLast?_cons]
        rcases Option.eq_none_or_eq_some (ds.filter (hasKey gt ent k)).getLast? with hn | ⟨x, hx⟩
        · rw [hn]
          simp only [Option.getD_none]
          rw [if_pos ⟨e1.symm, e2.symm⟩]
          subst e1 e2 e3
          rw [List.getElem?_set_self hd.2]
        · rw [hx]
          simp
      · rw [List.filter_cons_of_neg hk]
        rcases Option.eq_none_or_eq_some (ds.filter (hasKey gt ent k)).getLast? with hn | ⟨x, hx⟩
        · rw [hn]
          simp only
          split
          · next hc =>
            have : d.k ≠ k := fun e => hk (hasKey_iff.mpr ⟨hc.1.symm, hc.2.symm, e⟩)
            rw [List.getElem?_set_ne this]
          · rfl
        · rw [hx]

theorem scanRest_spec : ∀ (ds : List Nat) (prev : Nat) (c f : Bool),
    ((scanRest prev ds (c, f)).1 = true ↔ c = true ∨ ∃ d ∈ ds, 0 < d) ∧
    ((scanRest prev ds (c, f)).2 = true ↔ f = true ∧ ∀ d ∈ ds, d = prev) := by
  intro ds
  induction ds with
  | nil => intro prev c f; simp [scanRest]
  | cons d ds ih =>
    intro prev c f
    obtain ⟨a, b⟩ := ih d (if d > 0 then true else c) (if prev ≠ d then false else f)
    unfold scanRest
    refine ⟨?_, ?_⟩
    · rw [a]
      by_cases h : d > 0
      · simp [h]
      · simp [h]
    · rw [b]
      by_cases h : prev = d
      · subst h; simp
      · simp [h]; intro _ e; exact absurd e.symm h

theorem scanType_spec {dofs : List Nat} {st : Bool × Bool} (h : dofs ≠ []) :
    ∃ st', scanType dofs st = some st' ∧ (st'.1 = true ↔ st.1 = true ∨ ∃ d ∈ dofs, 0 < d) ∧
      (st'.2 = true ↔ st.2 = true ∧ ∀ d ∈ dofs, ∀ d' ∈ dofs, d = d') := by
  match dofs, h with
  | d :: ds, _ =>
    refine ⟨_, rfl, ?_, ?_⟩
    · rw [(scanRest_spec ds d _ _).1]
      by_cases h : d > 0
      · simp [h]
      · simp [h]
    · rw [(scanRest_spec ds d _ _).2]
      constructor
      · rintro ⟨a, b⟩
        refine ⟨a, fun x hx y hy => ?_⟩
        have e : ∀ z ∈ d :: ds, z = d := by
          intro z hz
          rcases List.mem_cons.mp hz with h | h
          · exact h
          · exact b z h
        rw [e x hx, e y hy]
      · rintro ⟨a, b⟩
        exact ⟨a, fun x hx => b x (List.mem_cons_of_mem _ hx) d (List.mem_cons_self ..)⟩

theorem scanFold_spec (B : Basis) (n : Nat → Nat → Nat) : ∀ (ts : List Nat) (st : Bool × Bool), (∀ gt ∈ ts, 0 < B.count gt) →
    ∃ st', ts.foldlM (fun st gt => scanType ((List.range (B.count gt)).map (n gt)) st) st = some st' ∧
      (st'.1 = true ↔ st.1 = true ∨ ∃ gt ∈ ts, ∃ ent, ent < B.count gt ∧ 0 < n gt ent) ∧
      (st'.2 = true ↔ st.2 = true ∧ ∀ gt ∈ ts, ∀ i j, i < B.count gt → j < B.count gt → n gt i = n gt j) := by
  intro ts
  induction ts with
  | nil => intro st _; exact ⟨st, rfl, by simp, by simp⟩
  | cons gt ts ih =>
    intro st h
    have hne : (List.range (B.count gt)).map (n gt) ≠ [] := by
      have := h gt (List.mem_cons_self ..)
      intro e
      have := congrArg List.length e
      simp at this
      omega
    obtain ⟨s1, a1, b1, c1⟩ := scanType_spec (st := st) hne
    obtain ⟨s2, a2, b2, c2⟩ := ih s1 (fun x hx => h x (List.mem_cons_of_mem _ hx))
    refine ⟨s2, ?_, ?_, ?_⟩
    · rw [List.foldlM_cons, a1]; exact a2
    · rw [b2, b1]
      simp only [List.mem_map, List.mem_range, List.mem_cons]
      constructor
      · rintro ((h | ⟨d, ⟨x, hx, rfl⟩, h⟩) | ⟨g, hg, r⟩)
        · exact Or.inl h
        · exact Or.inr ⟨gt, Or.inl rfl, x, hx, h⟩
        · exact Or.inr ⟨g, Or.inr hg, r⟩
      · rintro (h | ⟨g, rfl | hg, x, hx, h⟩)
        · exact Or.inl (Or.inl h)
        · exact Or.inl (Or.inr ⟨_, ⟨x, hx, rfl⟩, h⟩)
        · exact Or.inr ⟨g, hg, x, hx, h⟩
    · rw [c2, c1]
      simp only [List.mem_map, List.mem_range, List.mem_cons]
      constructor
      · rintro ⟨⟨h, a⟩, b⟩
        refine ⟨h, ?_⟩
        rintro g (rfl | hg) i j hi hj
        · exact a _ ⟨i, hi, rfl⟩ _ ⟨j, hj, rfl⟩
        · exact b g hg i j hi hj
      · rintro ⟨h, a⟩
        refine ⟨⟨h, ?_⟩, fun g hg => a g (Or.inr hg)⟩
        rintro _ ⟨i, hi, rfl⟩ _ ⟨j, hj, rfl⟩
        exact a gt (Or.inl rfl) i j hi hj

theorem mapM_some {α β : Type} (f : α → Option β) : ∀ l : List α, (∀ a ∈ l, ∃ b, f a = some b) →
    ∃ r : List β, l.mapM f = some r ∧ ∀ i : Nat, r[i]? = (l[i]?).bind f := by
  intro l
  induction l with
  | nil => intro _; exact ⟨[], by simp, by simp⟩
  | cons a l ih =>
    intro h
    obtain ⟨b, hb⟩ := h a (List.mem_cons_self ..)
    obtain ⟨r, h1, h2⟩ := ih fun x hx => h x (List.mem_cons_of_mem _ hx)
    refine ⟨b :: r, by rw [List.mapM_cons, hb, h1]; rfl, fun i => ?_⟩
    cases i with
    | zero => simp [hb]
    | succ i => simpa using h2 i

/-- All about `update`. -/
theorem update_all (B : Basis) (hB : B.Indexed) : ∃ o, update B = some o ∧
    (∀ gt ent,
      (∀ m, o.size gt ent ≤ m ↔ ∀ e ∈ B.elements, ∀ d ∈ e, d.On gt ent → d.k < m) ∧
      ∀ k, o.containerIndex (gt, ent, k) = ((B.elements.flatten.filter (hasKey gt ent k)).getLast?).map LocalDof.index) ∧
    ∀ codim : Nat, ∀ ts : List Nat, B.types[codim]? = some ts → ∃ c f : Bool,
      o.contains codim = some c ∧ o.fixedSize codim = some f ∧
      (c = true ↔ ∃ gt ∈ ts, ∃ ent, ent < B.count gt ∧ 0 < o.size gt ent) ∧
      (f = true ↔ ∀ gt ∈ ts, ∀ i j, i < B.count gt → j < B.count gt → o.size gt i = o.size gt j) := by
  have hin : ∀ d ∈ B.elements.flatten, d.ent < B.count d.gt := by
    intro d hd
    obtain ⟨e, he, hd⟩ := List.mem_flatten.mp hd
    exact hB.1 e he d hd
  obtain ⟨n, n1, n2⟩ := count_fold B B.elements.flatten (fun _ _ => 0) hin
  have n3 : dofsPerEntity B = some n := by unfold dofsPerEntity; rw [foldlM_flat]; exact n1
  have hk : ∀ d ∈ B.elements.flatten, d.k < n d.gt d.ent := by
    intro d hd
    exact ((n2 d.gt d.ent _).mp (Nat.le_refl _)).2 d hd ⟨rfl, rfl⟩
  obtain ⟨t, t1, t2⟩ := set_fold B B.elements.flatten (fun gt ent => List.replicate (n gt ent) none)
    (fun d hd => ⟨hin d hd, by rw [List.length_replicate]; exact hk d hd⟩)
  have t3 : containerIndices B n = some t := by unfold containerIndices; rw [foldlM_flat]; exact t1
  have hlen : ∀ gt ent, (t gt ent).length = n gt ent := fun gt ent => by rw [(t2 gt ent).1, List.length_replicate]
  obtain ⟨r, r1, r2⟩ := mapM_some (scanCodim B n) B.types (fun ts hts => by
    obtain ⟨s, hs, _⟩ := scanFold_spec B n ts (false, true) (hB.2 ts hts)
    exact ⟨s, hs⟩)
  refine ⟨⟨t, r⟩, by unfold update; rw [n3]; simp only; rw [t3, r1], fun gt ent => ⟨fun m => ?_, fun k => ?_⟩, ?_⟩
  · change (t gt ent).length ≤ m ↔ _
    rw [hlen, n2]
    constructor
    · rintro ⟨_, h⟩ e he d hd
      exact h d (List.mem_flatten.mpr ⟨e, he, hd⟩)
    · intro h
      refine ⟨Nat.zero_le _, fun d hd => ?_⟩
      obtain ⟨e, he, hd⟩ := List.mem_flatten.mp hd
      exact h e he d hd
  · change ((t gt ent)[k]?).join = _
    rw [(t2 gt ent).2 k]
    rcases Option.eq_none_or_eq_some (B.elements.flatten.filter (hasKey gt ent k)).getLast? with hn | ⟨x, hx⟩
    · rw [hn]
      simp only [Option.map_none, List.getElem?_replicate]
      split <;> rfl
    · rw [hx]; rfl
  · intro codim ts hts
    obtain ⟨s, s1, s2, s3⟩ := scanFold_spec B n ts (false, true) (hB.2 ts (List.mem_of_getElem? hts))
    have hr : r[codim]? = some s := by rw [r2, hts]; exact s1
    refine ⟨s.1, s.2, ?_, ?_, ?_, ?_⟩
    · change r[codim]?.map Prod.fst = _; rw [hr]; rfl
    · change r[codim]?.map Prod.snd = _; rw [hr]; rfl
    · rw [s2]; simp only [Bool.false_eq_true, false_or, LeafOrdering.size, hlen]
    · rw [s3]; simp only [true_and, LeafOrdering.size, hlen]

theorem extract_eq (o : LeafOrdering) (gt ent : Nat) :
    o.extract gt ent = (List.range (o.size gt ent)).map fun k => o.containerIndex (gt, ent, k) := rfl

/-- The last element of a list with a property. -/
theorem exists_last {α : Type} (P : α → Prop) (l : List α) (h : ∃ a ∈ l, P a) :
    ∃ p a s, l = p ++ a :: s ∧ P a ∧ ∀ x ∈ s, ¬ P x := by
  induction l with
  | nil => obtain ⟨a, ha, _⟩ := h; cases ha
  | cons y l ih =>
    by_cases hl : ∃ a ∈ l, P a
    · obtain ⟨p, a, s, e, ha, hs⟩ := ih hl
      exact ⟨y :: p, a, s, by rw [e]; rfl, ha, hs⟩
    · obtain ⟨a, ha, hp⟩ := h
      rcases List.mem_cons.mp ha with rfl | ha
      · exact ⟨[], a, l, rfl, hp, fun x hx hpx => hl ⟨x, hx, hpx⟩⟩
      · exact absurd ⟨a, ha, hp⟩ hl

theorem mem_dofsOn {e : List LocalDof} {gt ent : Nat} {d : LocalDof} :
    d ∈ dofsOn e gt ent ↔ d ∈ e ∧ d.gt = gt ∧ d.ent = ent := by
  simp [dofsOn]

/-- In a list where the keys differ only one local DOF has the key. -/
theorem unique_of_nodup : ∀ {l : List LocalDof}, (l.map LocalDof.k).Nodup → ∀ {a b : LocalDof}, a ∈ l → b ∈ l → a.k = b.k → a = b := by
  intro l
  induction l with
  | nil => intro _ a b ha; cases ha
  | cons x l ih =>
    intro h a b ha hb e
    rw [List.map_cons, List.nodup_cons] at h
    rcases List.mem_cons.mp ha with a1 | a1
    · rcases List.mem_cons.mp hb with b1 | b1
      · rw [a1, b1]
      · exact absurd (List.mem_map.mpr ⟨b, b1, by rw [← e, a1]⟩) h.1
    · rcases List.mem_cons.mp hb with b1 | b1
      · exact absurd (List.mem_map.mpr ⟨a, a1, by rw [e, b1]⟩) h.1
      · exact ih h.2 a1 b1 e

end Verif.DuneFunctionsSpace
