import Verif.Proofs.BorderExchange
import Mathlib.Tactic.NormNum
/-
Properties of the exchange of matrix patterns and entries on the border of nonoverlapping processes.

C144: the cache of border entities translates indices and global ids into each other.
C145: the pattern of each process is extended by the links of other processes between DOFs it knows, and nothing else.
C146: making the matrix consistent adds up the entries of all processes.
-/
namespace Verif

open BorderExchange BorderExchange.Spec

/-- C144. A new cache knows for every entity with DOFs whether it is a border entity, the global ids of the border entities and where they are. -/
theorem C144_cache_partial {v : View} (hv : WellFormed v) : ∃ c, Cache.update v Cache.empty = some c ∧
    (∀ e, Relevant v e → c.isBorder e.gt e.index = some e.border) ∧
    (∀ e, Relevant v e → e.border = true → c.id e.gt e.index = some e.id) ∧
    ∀ id i, c.findIndex id = some i ↔ ∃ e, Relevant v e ∧ e.border = true ∧ e.id = id ∧ i = (e.gt, e.index) := by
  obtain ⟨c, h1, h2⟩ := update_entered hv
  exact ⟨c, h1, fun e he => isBorder_of hv h2 he, fun e he hb => id_of hv h2 he hb, fun id i => findIndex_iff h2⟩

private theorem entered {M : Machine} {view : Nat → View} {dofsU : Nat → Nat → Nat → List Nat} (hv : Valid M view dofsU) {p : Nat} (hp : p < M.procs) :
    Entered (view p) (Relevant (view p)) (M.cache p) := entered_unique (hv.wf p hp) (hv.cache p hp)

/-- C145. The announced number of items is the number of items written, for patterns and for entries. -/
theorem C145_size (b : BorderPattern) (gt i : Nat) (trees : List Nat) : size b gt i trees = (gatherPattern b gt i trees).length ∧
    ∀ {K : Type} (c : Cache) (mapV mapU : Dof → Nat) (A : Mat K) (data : List (Nat × (Nat × Nat) × K)),
      gatherData c b mapV mapU A gt i trees = some data → data.length = size b gt i trees := by
  refine ⟨size_eq b gt i trees, ?_⟩
  intro K c mapV mapU A
  rw [size_eq]
  have hrow : ∀ (row : Dof) (s : List (Nat × Nat)) (data : List (Nat × (Nat × Nat) × K)), gatherRow c mapV mapU A row s = some data → data.length = s.length := by
    intro row s
    induction s with
    | nil => intro data h; simp only [gatherRow, Option.some.injEq] at h; rw [← h]; rfl
    | cons a s ih =>
      intro data h
      unfold gatherRow at h
      simp only [Option.bind_eq_bind, Option.bind_eq_some_iff] at h
      obtain ⟨e, _, a', _, rest, hr, h⟩ := h
      rw [Option.some.injEq] at h
      rw [← h, List.length_cons, ih rest hr, List.length_cons]
  induction trees with
  | nil => intro data h; simp only [gatherData, Option.some.injEq] at h; rw [← h]; rfl
  | cons t ts ih =>
    intro data h
    unfold gatherData at h
    rcases hb : b ⟨gt, i, t⟩ with _ | s
    · simp only [hb, Option.bind_eq_bind, Option.bind_some, Option.bind_eq_some_iff, List.nil_append, Option.some.injEq] at h
      obtain ⟨rest, hr, rfl⟩ := h
      rw [gather_cons, gather_none hb, List.nil_append]
      exact ih rest hr
    · simp only [hb, Option.bind_eq_bind, Option.bind_eq_some_iff, Option.some.injEq] at h
      obtain ⟨first, hf, rest, hr, rfl⟩ := h
      rw [List.length_append, ih rest hr, gather_cons, List.length_append, gather_some hb, List.length_map, hrow _ s first hf]

/-- The messages that hit an entry. -/
private theorem hit {M : Machine} {view : Nat → View} {dofsU : Nat → Nat → Nat → List Nat} (hv : Valid M view dofsU) {links : Nat → List (List Link)}
    (hl : ValidLinks M view dofsU links) {msgs : List Message} (hm : Exchange M view msgs) {b : Nat → BorderPattern}
    (hb : ∀ p, p < M.procs → Repr (view p) (links p) (b p)) {m : Message} (hmem : m ∈ msgs) {x : Nat × Nat × Nat} (hx : x ∈ itemsOf M b m) :
    ∃ I J d dj, I.2 = x.1 ∧ J = x.2 ∧ Linked (view m.src) (links m.src) I J ∧ At (view m.src) I d ∧ At (view m.src) J dj ∧
      d = ⟨m.sent.1, m.sent.2, x.1⟩ ∧ IsDof (view m.src) (M.dofs m.src) d ∧ IsDof (view m.src) (dofsU m.src) dj ∧
      At (view m.dst) I ⟨m.received.1, m.received.2, x.1⟩ := by
  obtain ⟨h1, h2, h3, e, e', he, he', hid, hs, hr⟩ := (hm.2 m).1 hmem
  have hx' := mem_gather.1 hx
  have hwf := hv.wf m.src h1
  have hbord := hv.shared m.src m.dst h1 h2 h3 e e' he he' hid
  have hbord' := hv.shared m.dst m.src h2 h1 (Ne.symm h3) e' e he' he hid.symm
  have hat : At (view m.src) (e.id, x.1) ⟨m.sent.1, m.sent.2, x.1⟩ := ⟨e, he, hbord, rfl, by rw [hs]⟩
  obtain ⟨ls, hls, l, hll, k1, k2, k3, _, k5⟩ := ((hb m.src h1).mem _ _).1 hx'.2
  have hval := hl m.src h1 ls hls l hll
  refine ⟨(e.id, x.1), x.2, ⟨m.sent.1, m.sent.2, x.1⟩, l.col, rfl, rfl, ⟨ls, hls, l, hll, k1, k2, ?_, k5⟩, hat, k5, rfl, ?_, hval.2, ?_⟩
  · rw [k3]; exact hat
  · rw [← k3]; exact hval.1
  · exact ⟨e', he', hbord', hid.symm, by rw [hr]⟩

private theorem message_of {M : Machine} {view : Nat → View} {dofsU : Nat → Nat → Nat → List Nat} (hv : Valid M view dofsU) {links : Nat → List (List Link)}
    (hl : ValidLinks M view dofsU links) {msgs : List Message} (hm : Exchange M view msgs) {b : Nat → BorderPattern}
    (hb : ∀ p, p < M.procs → Repr (view p) (links p) (b p)) {p q : Nat} (hp : p < M.procs) (hq : q < M.procs) (hpq : p ≠ q) {I J : Nat × Nat}
    (hlink : Linked (view p) (links p) I J) {di dj : Dof} (hi : At (view q) I di) (hj : At (view q) J dj) :
    ∃ m ∈ msgs, m.src = p ∧ m.dst = q ∧ m.received = (di.gt, di.index) ∧ (I.2, J) ∈ itemsOf M b m ∧
      target M M.mapV M.mapU m (I.2, J) = some (M.mapV q di, M.mapU q dj) := by
  obtain ⟨ls, hls, l, hll, k1, k2, k3, k4⟩ := id hlink
  obtain ⟨e, he, heb, hei, hed⟩ := id k3
  obtain ⟨e', he', heb', hei', hed'⟩ := id hi
  have hval := hl p hp ls hls l hll
  refine ⟨⟨p, q, (e.gt, e.index), (e'.gt, e'.index)⟩, (hm.2 _).2 ⟨hp, hq, hpq, e, e', he, he', by rw [hei, hei'], rfl, rfl⟩, rfl, rfl, ?_, ?_, ?_⟩
  · rw [hed']
  · rw [itemsOf, mem_gather]
    refine ⟨?_, ?_⟩
    · obtain ⟨f, hf, f1, f2, f3⟩ := hval.1
      have : f = e := (hv.wf p hp).indices f e hf he (by rw [← f1, hed]) (by rw [← f2, hed])
      rw [this, hed] at f3
      exact f3
    · rw [← linked_iff (hv.wf p hp) (hb p hp) (I := I) (J := J)]
      · exact hlink
      · rw [← hed]; exact k3
  · obtain ⟨i, h1, h2⟩ := (at_iff (entered hv hq)).1 hj
    unfold target
    simp only [h1, Option.map_some, Option.some.injEq, Prod.mk.injEq]
    exact ⟨by rw [hed'], by rw [h2]⟩

private theorem localPattern_iff (mapV mapU : Dof → Nat) : ∀ (ls : List Link) (P : Nat → Nat → Bool) (r c : Nat), localPattern mapV mapU ls P r c = true ↔
    P r c = true ∨ ∃ l ∈ ls, l.rowConstrained = false ∧ l.colConstrained = false ∧ r = mapV l.row ∧ c = mapU l.col := by
  unfold localPattern
  intro ls
  induction ls with
  | nil => intro P r c; simp
  | cons a ls ih =>
    intro P r c
    rw [List.foldl_cons, ih]
    simp only [List.mem_cons, exists_eq_or_imp, ← or_assoc]
    refine or_congr ?_ Iff.rfl
    rcases a.rowConstrained <;> rcases a.colConstrained <;> simp

private theorem localPatterns_iff (mapV mapU : Dof → Nat) : ∀ (links : List (List Link)) (P : Nat → Nat → Bool) (r c : Nat),
    links.foldl (fun P l => localPattern mapV mapU l P) P r c = true ↔
    P r c = true ∨ ∃ ls ∈ links, ∃ l ∈ ls, l.rowConstrained = false ∧ l.colConstrained = false ∧ r = mapV l.row ∧ c = mapU l.col := by
  intro links
  induction links with
  | nil => intro P r c; simp
  | cons a ls ih =>
    intro P r c
    rw [List.foldl_cons, ih, localPattern_iff]
    simp only [List.mem_cons, exists_eq_or_imp, ← or_assoc]

private theorem borders {M : Machine} {view : Nat → View} {dofsU : Nat → Nat → Nat → List Nat} (hv : Valid M view dofsU) {links : Nat → List (List Link)}
    (hl : ValidLinks M view dofsU links) : ((List.range M.procs).all fun p => ((links p).foldlM (addEntries (M.cache p)) fun _ => none).isSome) = true ∧
    ∀ p, p < M.procs → Repr (view p) (links p) (((links p).foldlM (addEntries (M.cache p)) fun _ => none).getD fun _ => none) := by
  have h : ∀ p, p < M.procs → ∃ b, (links p).foldlM (addEntries (M.cache p)) (fun _ => none) = some b ∧ Repr (view p) (links p) b :=
    fun p hp => border_repr (hv.wf p hp) (entered hv hp) (hl p hp)
  constructor
  · rw [List.all_eq_true]
    intro p hp
    obtain ⟨b, h1, _⟩ := h p (List.mem_range.1 hp)
    rw [h1]; rfl
  · intro p hp
    obtain ⟨b, h1, h2⟩ := h p hp
    rw [h1]; exact h2

/-- The result of filling the pattern. -/
private theorem fill_spec {M : Machine} {view : Nat → View} {dofsU : Nat → Nat → Nat → List Nat} (hv : Valid M view dofsU) {links : Nat → List (List Link)}
    (hl : ValidLinks M view dofsU links) {msgs : List Message} (hm : Exchange M view msgs) (P : Nat → Nat → Nat → Bool) :
    ∃ b P', fillPattern M links msgs P = some (b, P') ∧ (∀ p, p < M.procs → Repr (view p) (links p) (b p)) ∧ ∀ q, q < M.procs → ∀ r c,
      (P' q r c = true ↔ P q r c = true ∨
        (∃ ls ∈ links q, ∃ l ∈ ls, l.rowConstrained = false ∧ l.colConstrained = false ∧ r = M.mapV q l.row ∧ c = M.mapU q l.col) ∨
        ∃ p, p < M.procs ∧ p ≠ q ∧ ∃ I J di dj, Linked (view p) (links p) I J ∧ At (view q) I di ∧ At (view q) J dj ∧
          r = M.mapV q di ∧ c = M.mapU q dj) := by
  obtain ⟨h1, h2⟩ := borders hv hl
  unfold fillPattern
  simp only
  rw [if_pos h1]
  obtain ⟨P', h3, h4⟩ := extendPattern_spec M (fun p => ((links p).foldlM (addEntries (M.cache p)) fun _ => none).getD fun _ => none) msgs
    fun p => (links p).foldl (fun P l => localPattern (M.mapV p) (M.mapU p) l P) (P p)
  refine ⟨_, P', by rw [h3]; rfl, h2, ?_⟩
  intro q hq r c
  rw [h4, localPatterns_iff, or_assoc]
  refine or_congr Iff.rfl (or_congr Iff.rfl ?_)
  constructor
  · rintro ⟨m, hmem, rfl, x, hx, ht⟩
    obtain ⟨I, J, d, dj, hI, rfl, hlink, _, _, _, _, _, hat⟩ := hit hv hl hm h2 hmem hx
    have hmm := (hm.2 m).1 hmem
    unfold target at ht
    rw [Option.map_eq_some_iff] at ht
    obtain ⟨e, he, hrc⟩ := ht
    rw [Prod.mk.injEq] at hrc
    exact ⟨m.src, hmm.1, hmm.2.2.1, I, x.2, _, _, hlink, hat, (at_iff (entered hv hmm.2.1)).2 ⟨e, he, rfl⟩, hrc.1.symm, hrc.2.symm⟩
  · rintro ⟨p, hp, hpq, I, J, di, dj, hlink, hi, hj, rfl, rfl⟩
    obtain ⟨m, k1, _, k3, _, k5, k6⟩ := message_of hv hl hm h2 hp hq hpq hlink hi hj
    exact ⟨m, k1, k3, (I.2, J), k5, k6⟩

/-- C145. For every order of the messages, filling the pattern succeeds, and the pattern of a process has the local links and those between
unconstrained border DOFs linked on another process, if it knows both of them. -/
theorem C145_pattern_partial {M : Machine} {view : Nat → View} {dofsU : Nat → Nat → Nat → List Nat} (hv : Valid M view dofsU) {links : Nat → List (List Link)}
    (hl : ValidLinks M view dofsU links) {msgs : List Message} (hm : Exchange M view msgs) (P : Nat → Nat → Nat → Bool) :
    ∃ b P', fillPattern M links msgs P = some (b, P') ∧ ∀ q, q < M.procs → ∀ r c,
      (P' q r c = true ↔ P q r c = true ∨
        (∃ ls ∈ links q, ∃ l ∈ ls, l.rowConstrained = false ∧ l.colConstrained = false ∧ r = M.mapV q l.row ∧ c = M.mapU q l.col) ∨
        ∃ p, p < M.procs ∧ p ≠ q ∧ ∃ I J di dj, Linked (view p) (links p) I J ∧ At (view q) I di ∧ At (view q) J dj ∧
          r = M.mapV q di ∧ c = M.mapU q dj) := by
  obtain ⟨b, P', h1, _, h3⟩ := fill_spec hv hl hm P
  exact ⟨b, P', h1, h3⟩

section
variable {K : Type} [AddCommMonoid K]

open Classical in
/-- The entries after the communication. -/
private theorem entries_spec {M : Machine} {view : Nat → View} {dofsU : Nat → Nat → Nat → List Nat} (hv : Valid M view dofsU) {links : Nat → List (List Link)}
    (hl : ValidLinks M view dofsU links) {msgs : List Message} (hm : Exchange M view msgs) {b : Nat → BorderPattern}
    (hb : ∀ p, p < M.procs → Repr (view p) (links p) (b p)) (A : Nat → Mat K)
    (hA : ∀ q, q < M.procs → ∀ p, p < M.procs → ∀ I J di dj, Linked (view p) (links p) I J → At (view q) I di → At (view q) J dj →
      (A q).pattern (M.mapV q di) (M.mapU q dj) = true) :
    ∃ A', msgs.foldlM (deliverEntries M M.mapV M.mapU b A) A = some A' ∧ (∀ q, (A' q).pattern = (A q).pattern) ∧
      (∀ q, q < M.procs → ∀ I J di dj, At (view q) I di → At (view q) J dj → IsDof (view q) (M.dofs q) di → IsDof (view q) (dofsU q) dj →
        ∀ a : Nat → K, (∀ p, p < M.procs → ∀ di dj, At (view p) I di → At (view p) J dj → a p = (A p).val (M.mapV p di) (M.mapU p dj)) →
        (A' q).val (M.mapV q di) (M.mapU q dj) = (A q).val (M.mapV q di) (M.mapU q dj) +
          ∑ p ∈ Finset.range M.procs, if p ≠ q ∧ Linked (view p) (links p) I J then a p else 0) ∧
      ∀ q, q < M.procs → ∀ r c, (¬ ∃ I J di dj, At (view q) I di ∧ At (view q) J dj ∧ r = M.mapV q di ∧ c = M.mapU q dj) →
        (A' q).val r c = (A q).val r c := by
  obtain ⟨A', h1, h2, h3⟩ := deliverEntries_fold (M := M) (mapR := M.mapV) (mapC := M.mapU) (b := b) (A := A) msgs A (fun _ => rfl) (by
    intro m hmem x hx
    obtain ⟨I, J, d, dj, hI, rfl, hlink, hat, hatj, hd, _, _, _⟩ := hit hv hl hm hb hmem hx
    have hmm := (hm.2 m).1 hmem
    obtain ⟨e, he, hej⟩ := (at_iff (entered hv hmm.1)).1 hatj
    refine ⟨e, he, ?_⟩
    rw [← hej, ← hd]
    exact hA m.src hmm.1 m.src hmm.1 I x.2 d dj hlink hat hatj) (by
    intro m hmem x hx r c ht
    obtain ⟨I, J, d, dj, hI, rfl, hlink, _, _, _, _, _, hat⟩ := hit hv hl hm hb hmem hx
    have hmm := (hm.2 m).1 hmem
    unfold target at ht
    rw [Option.map_eq_some_iff] at ht
    obtain ⟨e, he, hrc⟩ := ht
    rw [Prod.mk.injEq] at hrc
    rw [← hrc.1, ← hrc.2]
    exact hA m.dst hmm.2.1 m.src hmm.1 I x.2 _ _ hlink hat ((at_iff (entered hv hmm.2.1)).2 ⟨e, he, rfl⟩))
  refine ⟨A', h1, h2, ?_, ?_⟩
  · intro q hq I J di dj hi hj hdi hdj a ha
    rw [h3]
    congr 1
    -- what a message adds
    have hadd : ∀ m ∈ msgs, addition M M.mapV M.mapU b A q (M.mapV q di) (M.mapU q dj) m =
        if m.dst = q ∧ m.received = (di.gt, di.index) ∧ Linked (view m.src) (links m.src) I J then a m.src else 0 := by
      intro m hmem
      have hmm := (hm.2 m).1 hmem
      unfold addition
      by_cases hdst : m.dst = q
      · rw [if_pos hdst]
        have hnd : (itemsOf M b m).Nodup := nodup_gather (hb m.src hmm.1).once _ _ (hv.nodup _ _ _)
        have hiff : ∀ x ∈ itemsOf M b m, (target M M.mapV M.mapU m x = some (M.mapV q di, M.mapU q dj) ↔
            x = (I.2, J) ∧ m.received = (di.gt, di.index)) := by
          intro x hx
          obtain ⟨I', J', d, dj', hI', rfl, hlink, hat, hatj, hd, hdd, hdjd, hat'⟩ := hit hv hl hm hb hmem hx
          constructor
          · intro ht
            unfold target at ht
            rw [Option.map_eq_some_iff] at ht
            obtain ⟨e, he, hrc⟩ := ht
            rw [Prod.mk.injEq, hdst] at hrc
            rw [hdst] at hat' he
            have hcol : At (view q) x.2 ⟨e.1, e.2, x.2.2⟩ := (at_iff (entered hv hq)).2 ⟨e, he, rfl⟩
            have hrowdof : IsDof (view q) (M.dofs q) ⟨m.received.1, m.received.2, x.1⟩ := by
              obtain ⟨f, hf, _, hfi, hfd⟩ := hat'
              obtain ⟨f', hf', _, hfi', hfd'⟩ := hat
              obtain ⟨g, hg, g1, g2, g3⟩ := hdd
              have : g = f' := (hv.wf _ hmm.1).indices g f' hg hf' (by rw [← g1, hfd']) (by rw [← g2, hfd'])
              subst this
              rw [Dof.mk.injEq] at hfd
              refine ⟨f, hf, hfd.1, hfd.2.1, ?_⟩
              have hx1 : d.tree = x.1 := by rw [hd]
              rw [← hx1]
              exact hv.sameV m.src q hmm.1 hq g f hg hf (by rw [hfi', hfi]) _ g3
            have hcoldof : IsDof (view q) (dofsU q) ⟨e.1, e.2, x.2.2⟩ := by
              obtain ⟨f, hf, _, hfi, hfd⟩ := hcol
              obtain ⟨f', hf', _, hfi', hfd'⟩ := hatj
              obtain ⟨g, hg, g1, g2, g3⟩ := hdjd
              have : g = f' := (hv.wf _ hmm.1).indices g f' hg hf' (by rw [← g1, hfd']) (by rw [← g2, hfd'])
              subst this
              rw [Dof.mk.injEq] at hfd
              refine ⟨f, hf, hfd.1, hfd.2.1, ?_⟩
              have hx1 : dj'.tree = x.2.2 := by rw [hfd']
              simp only
              rw [← hx1]
              exact hv.sameU m.src q hmm.1 hq g f hg hf (by rw [hfi', hfi]) _ g3
            have hr := hv.injV q hq _ _ hrowdof hdi hrc.1
            have hc := hv.injU q hq _ _ hcoldof hdj hrc.2
            rw [hr] at hat'
            rw [hc] at hcol
            have e1 := at_inj (hv.wf q hq) hat' hi
            have e2 := at_inj (hv.wf q hq) hcol hj
            refine ⟨Prod.ext (by rw [← hI', e1]) e2, ?_⟩
            rw [← hr]
          · rintro ⟨hxx, hrec⟩
            obtain ⟨e, he, hej⟩ := (at_iff (entered hv hq)).1 hj
            unfold target
            rw [hdst, hxx]
            simp only [he, Option.map_some, Option.some.injEq, Prod.mk.injEq]
            refine ⟨?_, by rw [hej]⟩
            rw [hrec]
            obtain ⟨f, _, _, _, hfd⟩ := hi
            rw [hfd]
        by_cases hrec : m.received = (di.gt, di.index)
        · have hsum : ((itemsOf M b m).map fun x => if target M M.mapV M.mapU m x = some (M.mapV q di, M.mapU q dj) then
              valueOf (M.cache m.src) (M.mapV m.src) (M.mapU m.src) (A m.src) m.sent.1 m.sent.2 x else 0) =
              (itemsOf M b m).map fun x => if x = (I.2, J) then valueOf (M.cache m.src) (M.mapV m.src) (M.mapU m.src) (A m.src) m.sent.1 m.sent.2 x else 0 := by
            refine List.map_congr_left ?_
            intro x hx
            by_cases hxx : x = (I.2, J)
            · rw [if_pos ((hiff x hx).2 ⟨hxx, hrec⟩), if_pos hxx]
            · rw [if_neg (fun h => hxx ((hiff x hx).1 h).1), if_neg hxx]
          rw [hsum, sum_single hnd]
          -- the sender's copy
          obtain ⟨_, _, hne, e, e', he, he', hid, hs, hr⟩ := id hmm
          have he'' : ∃ f, Relevant (view q) f ∧ f.id = I.1 ∧ f.gt = di.gt ∧ f.index = di.index := by
            obtain ⟨f, hf, _, hfi, hfd⟩ := hi
            exact ⟨f, hf, hfi, by rw [hfd], by rw [hfd]⟩
          obtain ⟨f, hf, hfi, hfg, hfx⟩ := he''
          rw [hr, Prod.mk.injEq] at hrec
          rw [hdst] at he'
          have hef : e' = f := (hv.wf q hq).indices e' f he' hf (by rw [hrec.1, hfg]) (by rw [hrec.2, hfx])
          have hats : At (view m.src) I ⟨m.sent.1, m.sent.2, I.2⟩ :=
            ⟨e, he, hv.shared m.src q hmm.1 hq (by rw [← hdst]; exact hne) e e' he he' hid, by rw [hid, hef, hfi], by rw [hs]⟩
          have hmemiff : (I.2, J) ∈ itemsOf M b m ↔ Linked (view m.src) (links m.src) I J := by
            rw [itemsOf, mem_gather, linked_iff (hv.wf m.src hmm.1) (hb m.src hmm.1) hats]
            constructor
            · exact And.right
            · intro hM
              refine ⟨?_, hM⟩
              obtain ⟨ls, hls, l, hll, _, _, k3, _, _⟩ := ((hb m.src hmm.1).mem _ _).1 hM
              obtain ⟨g, hg, g1, g2, g3⟩ := (hl m.src hmm.1 ls hls l hll).1
              have : g = e := (hv.wf m.src hmm.1).indices g e hg he (by rw [← g1, k3, hs]) (by rw [← g2, k3, hs])
              rw [this, k3] at g3
              rw [hs]; exact g3
          by_cases hL : Linked (view m.src) (links m.src) I J
          · rw [if_pos (hmemiff.2 hL), if_pos ⟨hdst, by rw [hr, Prod.mk.injEq]; exact hrec, hL⟩]
            obtain ⟨_, _, l, _, _, _, _, k4⟩ := id hL
            obtain ⟨e2, he2, hj2⟩ := (at_iff (entered hv hmm.1)).1 k4
            rw [ha m.src hmm.1 _ _ hats k4, valueOf, hj2]
            simp only [he2]
          · rw [if_neg (fun h => hL (hmemiff.1 h)), if_neg (fun h => hL h.2.2)]
        · rw [if_neg (fun h => hrec h.2.1)]
          refine List.sum_eq_zero ?_
          intro y hy
          rw [List.mem_map] at hy
          obtain ⟨x, hx, rfl⟩ := hy
          rw [if_neg (fun h => hrec ((hiff x hx).1 h).2)]
      · rw [if_neg hdst, if_neg (fun h => hdst h.1)]
    rw [List.map_congr_left hadd]
    -- the sum over messages as a sum over processes
    rw [← List.sum_toFinset _ hm.1, ← Finset.sum_filter, ← Finset.sum_filter]
    refine Finset.sum_bij (fun m _ => m.src) ?_ ?_ ?_ ?_
    · intro m hmf
      rw [Finset.mem_filter, List.mem_toFinset] at hmf
      have hmm := (hm.2 m).1 hmf.1
      rw [Finset.mem_filter, Finset.mem_range]
      exact ⟨hmm.1, by rw [← hmf.2.1]; exact hmm.2.2.1, hmf.2.2.2⟩
    · intro m hmf m' hmf' hsrc
      rw [Finset.mem_filter, List.mem_toFinset] at hmf hmf'
      obtain ⟨p1, p2, p3, e, e', he, he', hid, hs, hr⟩ := (hm.2 m).1 hmf.1
      obtain ⟨p1', p2', p3', f, f', hf, hf', hid', hs', hr'⟩ := (hm.2 m').1 hmf'.1
      have hdst : m.dst = m'.dst := by rw [hmf.2.1, hmf'.2.1]
      have hrec : m.received = m'.received := by rw [hmf.2.2.1, hmf'.2.2.1]
      rw [← hdst] at hf'
      rw [hr, hr', Prod.mk.injEq] at hrec
      have e1 : e' = f' := (hv.wf m.dst p2).indices e' f' he' hf' hrec.1 hrec.2
      rw [← hsrc] at hf
      have e2 : e = f := (hv.wf m.src p1).ids e f he hf (by rw [hid, hid', e1])
      rcases m with ⟨s1, d1, t1, r1⟩
      rcases m' with ⟨s2, d2, t2, r2⟩
      simp only at hsrc hdst hs hs' hr hr'
      rw [Message.mk.injEq]
      exact ⟨hsrc, hdst, by rw [hs, hs', e2], by rw [hr, hr', e1]⟩
    · intro p hpf
      rw [Finset.mem_filter, Finset.mem_range] at hpf
      obtain ⟨m, k1, k2, k3, k4, _, _⟩ := message_of hv hl hm hb hpf.1 hq hpf.2.1 hpf.2.2 hi hj
      exact ⟨m, by rw [Finset.mem_filter, List.mem_toFinset]; exact ⟨k1, k3, k4, by rw [k2]; exact hpf.2.2⟩, k2⟩
    · intro m _; rfl
  · intro q hq r c hrc
    rw [h3]
    have : (msgs.map (addition M M.mapV M.mapU b A q r c)).sum = 0 := by
      refine List.sum_eq_zero ?_
      intro y hy
      rw [List.mem_map] at hy
      obtain ⟨m, hmem, rfl⟩ := hy
      unfold addition
      split
      · next hdst =>
        refine List.sum_eq_zero ?_
        intro y hy
        rw [List.mem_map] at hy
        obtain ⟨x, hx, rfl⟩ := hy
        rw [if_neg]
        intro ht
        obtain ⟨I, J, d, dj, hI, rfl, hlink, _, _, _, _, _, hat⟩ := hit hv hl hm hb hmem hx
        unfold target at ht
        rw [Option.map_eq_some_iff] at ht
        obtain ⟨e, he, hrc'⟩ := ht
        rw [Prod.mk.injEq, hdst] at hrc'
        rw [hdst] at hat he
        exact hrc ⟨I, x.2, _, _, hat, (at_iff (entered hv hq)).2 ⟨e, he, rfl⟩, hrc'.1.symm, hrc'.2.symm⟩
      · rfl
    rw [this, add_zero]

open Classical in
/-- C146, part: if test and trial space are the same, making a matrix consistent that has the filled pattern succeeds for every order of the
messages: to each entry between border DOFs those entries of the other processes are added that they have a link for; all other entries are
unchanged. -/
theorem C146_entries_partial {M : Machine} {view : Nat → View} {dofsU : Nat → Nat → Nat → List Nat} (hv : Valid M view dofsU) (hgal : M.mapU = M.mapV)
    (hprocs : 1 < M.procs) {links : Nat → List (List Link)} (hl : ValidLinks M view dofsU links) {msgs msgs' : List Message} (hm : Exchange M view msgs)
    (hm' : Exchange M view msgs') {P P' : Nat → Nat → Nat → Bool} {b : Nat → BorderPattern} (hfill : fillPattern M links msgs P = some (b, P'))
    (A : Nat → Mat K) (hA : ∀ q, q < M.procs → (A q).pattern = P' q) :
    ∃ A', accumulate M b msgs' A = some A' ∧ (∀ q, (A' q).pattern = (A q).pattern) ∧
      (∀ q, q < M.procs → ∀ I J di dj, At (view q) I di → At (view q) J dj → IsDof (view q) (M.dofs q) di → IsDof (view q) (dofsU q) dj →
        ∀ a : Nat → K, (∀ p, p < M.procs → ∀ di dj, At (view p) I di → At (view p) J dj → a p = (A p).val (M.mapV p di) (M.mapU p dj)) →
        (A' q).val (M.mapV q di) (M.mapU q dj) = (A q).val (M.mapV q di) (M.mapU q dj) +
          ∑ p ∈ Finset.range M.procs, if p ≠ q ∧ Linked (view p) (links p) I J then a p else 0) ∧
      ∀ q, q < M.procs → ∀ r c, (¬ ∃ I J di dj, At (view q) I di ∧ At (view q) J dj ∧ r = M.mapV q di ∧ c = M.mapU q dj) →
        (A' q).val r c = (A q).val r c := by
  obtain ⟨b', P'', h1, h2, h3⟩ := fill_spec hv hl hm P
  rw [hfill, Option.some.injEq, Prod.mk.injEq] at h1
  obtain ⟨rfl, rfl⟩ := h1
  have key := entries_spec hv hl hm' h2 A (by
    intro q hq p hp I J di dj hlink hi hj
    rw [hA q hq, h3 q hq]
    by_cases hpq : p = q
    · subst hpq
      obtain ⟨ls, hls, l, hll, k1, k2, k3, k4⟩ := hlink
      exact Or.inr (Or.inl ⟨ls, hls, l, hll, k1, k2, by rw [at_fun (hv.wf p hp) k3 hi], by rw [at_fun (hv.wf p hp) k4 hj]⟩)
    · exact Or.inr (Or.inr ⟨p, hp, hpq, I, J, di, dj, hlink, hi, hj, rfl, rfl⟩))
  unfold accumulate
  rw [if_pos hprocs]
  have e : deliverEntries M M.mapU M.mapV b A = deliverEntries M M.mapV M.mapU b A := by rw [hgal]
  rw [e]
  exact key

open Classical in
/-- C146, part: if the entries without a local link are zero, all processes get the sum of the entries of all processes. -/
theorem C146_consistent_partial {M : Machine} {view : Nat → View} {dofsU : Nat → Nat → Nat → List Nat} (hv : Valid M view dofsU) (hgal : M.mapU = M.mapV)
    (hprocs : 1 < M.procs) {links : Nat → List (List Link)} (hl : ValidLinks M view dofsU links) {msgs msgs' : List Message} (hm : Exchange M view msgs)
    (hm' : Exchange M view msgs') {P P' : Nat → Nat → Nat → Bool} {b : Nat → BorderPattern} (hfill : fillPattern M links msgs P = some (b, P'))
    (A : Nat → Mat K) (hA : ∀ q, q < M.procs → (A q).pattern = P' q) :
    ∃ A', accumulate M b msgs' A = some A' ∧ ∀ I J, ∀ a : Nat → K,
      (∀ p, p < M.procs → ∀ di dj, At (view p) I di → At (view p) J dj → a p = (A p).val (M.mapV p di) (M.mapU p dj)) →
      (∀ p, p < M.procs → ¬ Linked (view p) (links p) I J → a p = 0) →
      ∀ q, q < M.procs → ∀ di dj, At (view q) I di → At (view q) J dj → IsDof (view q) (M.dofs q) di → IsDof (view q) (dofsU q) dj →
        (A' q).val (M.mapV q di) (M.mapU q dj) = ∑ p ∈ Finset.range M.procs, a p := by
  obtain ⟨A', h1, _, h3, _⟩ := C146_entries_partial hv hgal hprocs hl hm hm' hfill A hA
  refine ⟨A', h1, ?_⟩
  intro I J a ha hz q hq di dj hi hj hdi hdj
  rw [h3 q hq I J di dj hi hj hdi hdj a ha, ← ha q hq di dj hi hj]
  rw [← Finset.add_sum_erase _ a (Finset.mem_range.2 hq)]
  congr 1
  rw [← Finset.add_sum_erase _ _ (Finset.mem_range.2 hq), if_neg (fun h => h.1 rfl), zero_add]
  refine Finset.sum_congr rfl ?_
  intro p hp
  rw [Finset.mem_erase, Finset.mem_range] at hp
  split
  · rfl
  · next h =>
    exact (hz p hp.2 (fun hL => h ⟨hp.1, hL⟩)).symm

open Classical in
/-- C146, part, for one step grid operators: if the links of the first operator on the border are links of the second, too, making a matrix
consistent succeeds and adds the entries that the first operator has links for. -/
theorem C146_onestep_partial {M : Machine} {view : Nat → View} {dofsU : Nat → Nat → Nat → List Nat} (hv : Valid M view dofsU) (hgal : M.mapU = M.mapV)
    (hprocs : 1 < M.procs) {links0 links1 : Nat → List (List Link)} (hl0 : ValidLinks M view dofsU links0) (hl1 : ValidLinks M view dofsU links1)
    (hsame : ∀ p, p < M.procs → ∀ I J, Linked (view p) (links0 p) I J → Linked (view p) (links1 p) I J) {msgs msgs' : List Message}
    (hm : Exchange M view msgs) (hm' : Exchange M view msgs') (P : Nat → Nat → Nat → Bool) :
    ∃ b0 b1 P', fillPatternOneStep M links0 links1 msgs P = some (b0, b1, P') ∧
      ∀ A : Nat → Mat K, (∀ q, q < M.procs → (A q).pattern = P' q) → ∃ A', accumulate M b0 msgs' A = some A' ∧
      ∀ q, q < M.procs → ∀ I J di dj, At (view q) I di → At (view q) J dj → IsDof (view q) (M.dofs q) di → IsDof (view q) (dofsU q) dj →
        ∀ a : Nat → K, (∀ p, p < M.procs → ∀ di dj, At (view p) I di → At (view p) J dj → a p = (A p).val (M.mapV p di) (M.mapU p dj)) →
        (A' q).val (M.mapV q di) (M.mapU q dj) = (A q).val (M.mapV q di) (M.mapU q dj) +
          ∑ p ∈ Finset.range M.procs, if p ≠ q ∧ Linked (view p) (links0 p) I J then a p else 0 := by
  obtain ⟨b1, P', h1, h2, h3⟩ := fill_spec hv hl1 hm fun p => (links0 p).foldl (fun P l => localPattern (M.mapV p) (M.mapU p) l P) (P p)
  obtain ⟨k1, k2⟩ := borders hv hl0
  refine ⟨_, b1, P', by unfold fillPatternOneStep; simp only; rw [if_pos k1, h1]; rfl, ?_⟩
  intro A hA
  obtain ⟨A', e1, _, e3, _⟩ := entries_spec hv hl0 hm' k2 A (by
    intro q hq p hp I J di dj hlink hi hj
    have hlink := hsame p hp I J hlink
    rw [hA q hq, h3 q hq]
    by_cases hpq : p = q
    · subst hpq
      obtain ⟨ls, hls, l, hll, k1, k2, k3, k4⟩ := hlink
      exact Or.inr (Or.inl ⟨ls, hls, l, hll, k1, k2, by rw [at_fun (hv.wf p hp) k3 hi], by rw [at_fun (hv.wf p hp) k4 hj]⟩)
    · exact Or.inr (Or.inr ⟨p, hp, hpq, I, J, di, dj, hlink, hi, hj, rfl, rfl⟩))
  refine ⟨A', ?_, e3⟩
  unfold accumulate
  rw [if_pos hprocs]
  have e : deliverEntries M M.mapU M.mapV (fun p => ((links0 p).foldlM (addEntries (M.cache p)) fun _ => none).getD fun _ => none) A =
      deliverEntries M M.mapV M.mapU (fun p => ((links0 p).foldlM (addEntries (M.cache p)) fun _ => none).getD fun _ => none) A := by rw [hgal]
  rw [e]
  exact e1
end

/-! ### Examples -/

/-- The example of the documentation, borderdofexchanger.hh:46-62: process 0 has the vertices 1, …, 8 and three cells, process 1 the vertices
2, 4, 7, …, 12 and three cells; 2, 4, 7, 8 are border vertices. -/
def docVertices (p : Nat) : List Nat := if p = 0 then [1, 2, 3, 4, 5, 6, 7, 8] else [2, 4, 7, 8, 9, 10, 11, 12]

def docEnts (p : Nat) : List Ent := (docVertices p).zipIdx.map fun (id, i) => ⟨0, i, id, id ∈ [2, 4, 7, 8]⟩

/-- Vertices have the geometry type 0, edges 1, quadrilaterals 3. -/
def docView (p : Nat) : View := ⟨2, 4, fun c => c == 2, fun c => if c = 2 then [0] else if c = 1 then [1] else [3],
  fun g => if g = 0 then 8 else if g = 1 then 10 else 3, fun c => if c = 2 then docEnts p else []⟩

def docMachine (mapU : Nat → Dof → Nat) : Machine where
  procs := 2
  cache := fun p => (Cache.update (docView p) Cache.empty).getD Cache.empty
  dofs := fun _ _ _ => [0]
  mapV := fun _ d => d.index
  mapU := mapU

/-- The links of a cell with the given vertices. -/
def cellLinks (p : Nat) (vertices : List Nat) : List Link :=
  vertices.flatMap fun a => vertices.map fun b => ⟨⟨0, (docVertices p).idxOf a, 0⟩, ⟨0, (docVertices p).idxOf b, 0⟩, false, false⟩

def docLinks (p : Nat) : List (List Link) :=
  (if p = 0 then [[1, 2, 3, 4], [3, 4, 5, 6], [4, 7, 6, 8]] else [[2, 9, 4, 7], [9, 10, 7, 11], [7, 11, 8, 12]]).map (cellLinks p)

def docMessages : List Message :=
  [(0, 1), (1, 0)].flatMap fun (p, q) => (docEnts p).flatMap fun e => ((docEnts q).filter fun e' => e.id == e'.id).map fun e' =>
    ⟨p, q, (e.gt, e.index), (e'.gt, e'.index)⟩

private theorem doc_relevant (p : Nat) (e : Ent) : Relevant (docView p) e ↔ e ∈ docEnts p := by
  constructor
  · rintro ⟨c, h1, h2, h3, h4⟩
    have : c = 2 := by simpa [docView] using h3
    subst this
    exact h4
  · intro h; exact ⟨2, by decide, Nat.le_refl 2, rfl, h⟩

private theorem doc_ents (p : Nat) : docEnts p = docEnts (if p = 0 then 0 else 1) := by
  unfold docEnts docVertices
  by_cases h : p = 0 <;> simp [h]

private theorem doc_wf (p : Nat) : WellFormed (docView p) where
  types := by
    intro c h1 h2 h3 e he
    have : c = 2 := by simpa [docView] using h3
    subst this
    have he : e ∈ docEnts p := he
    rw [doc_ents] at he
    have key : (∀ e ∈ docEnts 0, e.gt ∈ [0]) ∧ ∀ e ∈ docEnts 1, e.gt ∈ [0] := by decide
    by_cases hp : p = 0
    · rw [if_pos hp] at he; exact key.1 e he
    · rw [if_neg hp] at he; exact key.2 e he
  known := by
    intro c h1 h2 g hg
    have h2 : c ≤ 2 := h2
    have : c = 1 ∨ c = 2 := by omega
    rcases this with rfl | rfl
    · have : g = 1 := by simpa [docView] using hg
      subst this; show 1 < 4; decide
    · have : g = 0 := by simpa [docView] using hg
      subst this; show 0 < 4; decide
  inRange := by
    intro e he
    rw [doc_relevant, doc_ents] at he
    have key : (∀ e ∈ docEnts 0, e.index < (docView 0).size e.gt) ∧ ∀ e ∈ docEnts 1, e.index < (docView 0).size e.gt := by decide
    by_cases hp : p = 0
    · rw [if_pos hp] at he; exact key.1 e he
    · rw [if_neg hp] at he; exact key.2 e he
  indices := by
    intro e e' he he'
    rw [doc_relevant, doc_ents] at he he'
    have key : (∀ e ∈ docEnts 0, ∀ e' ∈ docEnts 0, e.gt = e'.gt → e.index = e'.index → e = e') ∧
      ∀ e ∈ docEnts 1, ∀ e' ∈ docEnts 1, e.gt = e'.gt → e.index = e'.index → e = e' := by decide
    by_cases hp : p = 0
    · rw [if_pos hp] at he he'; exact key.1 e he e' he'
    · rw [if_neg hp] at he he'; exact key.2 e he e' he'
  ids := by
    intro e e' he he'
    rw [doc_relevant, doc_ents] at he he'
    have key : (∀ e ∈ docEnts 0, ∀ e' ∈ docEnts 0, e.id = e'.id → e = e') ∧ ∀ e ∈ docEnts 1, ∀ e' ∈ docEnts 1, e.id = e'.id → e = e' := by decide
    by_cases hp : p = 0
    · rw [if_pos hp] at he he'; exact key.1 e he e' he'
    · rw [if_neg hp] at he he'; exact key.2 e he e' he'

private theorem doc_dof {p : Nat} {d : Dof} (h : IsDof (docView p) (fun _ _ => [0]) d) : d.gt = 0 ∧ d.tree = 0 := by
  obtain ⟨e, he, h1, _, h3⟩ := h
  rw [doc_relevant, doc_ents] at he
  have key : (∀ e ∈ docEnts 0, e.gt = 0) ∧ ∀ e ∈ docEnts 1, e.gt = 0 := by decide
  refine ⟨?_, by simpa using h3⟩
  rw [h1]
  by_cases hp : p = 0
  · rw [if_pos hp] at he; exact key.1 e he
  · rw [if_neg hp] at he; exact key.2 e he

/-- Positions are indices on both processes, or reversed in the trial space. -/
private theorem doc_valid {mapU : Nat → Dof → Nat} (hU : ∀ p d d', IsDof (docView p) (fun _ _ => [0]) d → IsDof (docView p) (fun _ _ => [0]) d' →
    mapU p d = mapU p d' → d = d') : Valid (docMachine mapU) docView fun _ _ _ => [0] where
  wf := fun p _ => doc_wf p
  cache := by
    intro p _
    obtain ⟨c, h, _⟩ := update_entered (doc_wf p)
    show Cache.update (docView p) Cache.empty = some ((Cache.update (docView p) Cache.empty).getD Cache.empty)
    rw [h]; rfl
  shared := by
    intro p q hp hq hpq e e' he he' hid
    rw [doc_relevant, doc_ents] at he he'
    have key : (∀ e ∈ docEnts 0, ∀ e' ∈ docEnts 1, e.id = e'.id → e.border = true) ∧ ∀ e ∈ docEnts 1, ∀ e' ∈ docEnts 0, e.id = e'.id → e.border = true := by
      decide
    have hp : p < 2 := hp
    have hq : q < 2 := hq
    by_cases h : p = 0
    · rw [if_pos h] at he; rw [if_neg (by omega)] at he'; exact key.1 e he e' he' hid
    · rw [if_neg h] at he; rw [if_pos (by omega)] at he'; exact key.2 e he e' he' hid
  nodup := fun _ _ _ => List.nodup_singleton 0
  sameV := fun _ _ _ _ _ _ _ _ _ _ h => h
  sameU := fun _ _ _ _ _ _ _ _ _ _ h => h
  injV := by
    intro p _ d d' h h' hd
    have k := doc_dof h
    have k' := doc_dof h'
    have hd : d.index = d'.index := hd
    rcases d with ⟨a, b, c⟩
    rcases d' with ⟨a', b', c'⟩
    simp only at k k' hd
    rw [k.1, k.2, k'.1, k'.2, hd]
  injU := fun p _ d d' h h' hd => hU p d d' h h' hd

private theorem doc_galerkin : Valid (docMachine fun _ d => d.index) docView fun _ _ _ => [0] := by
  refine doc_valid ?_
  intro p d d' h h' hd
  have k := doc_dof h
  have k' := doc_dof h'
  rcases d with ⟨a, b, c⟩
  rcases d' with ⟨a', b', c'⟩
  simp only at k k' hd
  rw [k.1, k.2, k'.1, k'.2, hd]

private theorem doc_links (mapU : Nat → Dof → Nat) : ValidLinks (docMachine mapU) docView (fun _ _ _ => [0]) docLinks := by
  intro p hp ls hls l hl
  have hp : p < 2 := hp
  have key : ∀ p < 2, ∀ ls ∈ docLinks p, ∀ l ∈ ls, ((docEnts p).any fun e => l.row.gt == e.gt && l.row.index == e.index && l.row.tree == 0) = true ∧
      ((docEnts p).any fun e => l.col.gt == e.gt && l.col.index == e.index && l.col.tree == 0) = true := by decide +kernel
  have h := key p hp ls hls l hl
  rw [List.any_eq_true, List.any_eq_true] at h
  obtain ⟨⟨e, he, h1⟩, ⟨e', he', h1'⟩⟩ := h
  simp only [Bool.and_eq_true, beq_iff_eq] at h1 h1'
  exact ⟨⟨e, (doc_relevant p e).2 he, h1.1.1, h1.1.2, by show l.row.tree ∈ [0]; rw [h1.2]; exact List.mem_singleton.2 rfl⟩,
    ⟨e', (doc_relevant p e').2 he', h1'.1.1, h1'.1.2, by rw [h1'.2]; exact List.mem_singleton.2 rfl⟩⟩

private theorem doc_exchange (mapU : Nat → Dof → Nat) : Exchange (docMachine mapU) docView docMessages := by
  refine ⟨by decide +kernel, ?_⟩
  intro m
  unfold docMessages
  simp only [List.mem_flatMap, List.mem_map, List.mem_filter, beq_iff_eq, List.mem_cons, List.not_mem_nil, or_false]
  constructor
  · rintro ⟨⟨p, q⟩, hpq, e, he, e', ⟨he', hid⟩, rfl⟩
    simp only [Prod.mk.injEq] at hpq
    refine ⟨?_, ?_, ?_, e, e', (doc_relevant p e).2 he, (doc_relevant q e').2 he', hid, rfl, rfl⟩
    · show p < 2; omega
    · show q < 2; omega
    · show p ≠ q; omega
  · rintro ⟨h1, h2, h3, e, e', he, he', hid, hs, hr⟩
    have h1 : m.src < 2 := h1
    have h2 : m.dst < 2 := h2
    refine ⟨(m.src, m.dst), ?_, e, (doc_relevant _ e).1 he, e', ⟨(doc_relevant _ e').1 he', hid⟩, ?_⟩
    · simp only [Prod.mk.injEq]; omega
    · rw [← hs, ← hr]

/- Filling the pattern: the link between 7 and 2 is missing on process 0 before the communication, and present afterwards; so is the link
between 4 and 8 on process 1. There are no links between 2 and 8. -/
example : ((fillPattern (docMachine fun _ d => d.index) docLinks docMessages fun _ _ _ => false).map fun bP =>
    [bP.2 0 6 1, bP.2 0 1 6, bP.2 1 1 3, bP.2 0 1 7, bP.2 1 0 3, bP.2 0 0 6]) = some [true, true, true, false, false, false] := by decide +kernel

example : (docLinks 0).foldl (fun P l => localPattern (fun d => d.index) (fun d => d.index) l P) (fun _ _ => false) 6 1 = false := by decide +kernel

/-- The matrices of the example: all entries 1 on process 0, 10 on process 1 for local links. -/
def docMatrix (P' : Nat → Nat → Nat → Bool) (p : Nat) : Mat Int :=
  ⟨P' p, fun r c => if (docLinks p).foldl (fun P l => localPattern (fun d => d.index) (fun d => d.index) l P) (fun _ _ => false) r c then 10 ^ p else 0⟩

/-- The entries (7,2), (4,7), (4,8), (1,2) of process 0 and (7,2), (4,7), (4,8), (9,2) of process 1 after `n` times making the matrix consistent. -/
def docEntries (n : Nat) : Option (List (Option Int)) := do
  let (b, P') ← fillPattern (docMachine fun _ d => d.index) docLinks docMessages fun _ _ _ => false
  let A ← (List.range n).foldlM (fun A _ => accumulate (docMachine fun _ d => d.index) b docMessages A) (docMatrix P')
  some [(A 0).get 6 1, (A 0).get 3 6, (A 0).get 3 7, (A 0).get 0 1, (A 1).get 2 0, (A 1).get 1 2, (A 1).get 1 3, (A 1).get 4 0]

example : docEntries 0 = some [some 0, some 1, some 1, some 1, some 10, some 10, some 0, some 10] := by decide +kernel
example : docEntries 1 = some [some 10, some 11, some 1, some 1, some 10, some 11, some 1, some 10] := by decide +kernel

/- The hypotheses of the theorems are met. -/
example : ∃ b P', fillPattern (docMachine fun _ d => d.index) docLinks docMessages (fun _ _ _ => false) = some (b, P') ∧
    ∃ A', accumulate (docMachine fun _ d => d.index) b docMessages (docMatrix P') = some A' := by
  obtain ⟨b, P', h, _⟩ := C145_pattern_partial doc_galerkin (doc_links _) (doc_exchange _) fun _ _ _ => false
  obtain ⟨A', h', _⟩ := C146_entries_partial doc_galerkin rfl (by decide) (doc_links _) (doc_exchange _) (doc_exchange _) h (docMatrix P') (fun _ _ => rfl)
  exact ⟨b, P', h, A', h'⟩

/-- C144 fails if an existing cache is updated after the grid has changed: border entities that are gone are still found. Here the process has
given all its entities to other processes. -/
theorem C144_update_false : ∃ v v' : View, WellFormed v ∧ WellFormed v' ∧ ∃ c c', Cache.update v Cache.empty = some c ∧ Cache.update v' c = some c' ∧
    ∃ id i, c'.findIndex id = some i ∧ ¬ ∃ e, Relevant v' e ∧ e.id = id := by
  have hno : ∀ e, ¬ Relevant { docView 0 with ents := fun _ => [] } e := by
    rintro e ⟨c, _, _, _, h⟩; exact absurd h List.not_mem_nil
  refine ⟨docView 0, { docView 0 with ents := fun _ => [] }, doc_wf 0, ⟨?_, (doc_wf 0).known, ?_, ?_, ?_⟩, ?_⟩
  · intro c _ _ _ e he; exact absurd he List.not_mem_nil
  · intro e he; exact absurd he (hno e)
  · intro e _ he; exact absurd he (hno e)
  · intro e _ he; exact absurd he (hno e)
  have key : ((Cache.update (docView 0) Cache.empty).bind (Cache.update { docView 0 with ents := fun _ => [] })).bind (fun c => c.findIndex 2) = some (0, 1) := by
    decide +kernel
  simp only [Option.bind_eq_some_iff] at key
  obtain ⟨c', ⟨c, h1, h2⟩, h3⟩ := key
  exact ⟨c, c', h1, h2, 2, (0, 1), h3, fun ⟨e, he, _⟩ => hno e he⟩

/-- C145 fails for spaces with DOFs in cells: the cache has no flags for cells, so collecting the links of a cell is undefined. -/
theorem C145_cells_false : ∃ v : View, WellFormed v ∧ v.contains 0 = true ∧ ∃ e ∈ v.ents 0, e.gt ∈ v.types 0 ∧ e.gt < v.numTypes ∧ e.index < v.size e.gt ∧
    ∃ c, Cache.update v Cache.empty = some c ∧ c.isBorder e.gt e.index = none ∧
      addEntries c (fun _ => none) [⟨⟨e.gt, e.index, 0⟩, ⟨e.gt, e.index, 0⟩, false, false⟩] = none := by
  have hrel : ∀ e, ¬ Relevant { docView 0 with contains := fun c => c == 0, ents := fun _ => [⟨3, 0, 100, false⟩] } e := by
    rintro e ⟨c, h, _, h', _⟩
    have : c = 0 := by simpa using h'
    omega
  refine ⟨{ docView 0 with contains := fun c => c == 0, ents := fun _ => [⟨3, 0, 100, false⟩] }, ⟨?_, (doc_wf 0).known, ?_, ?_, ?_⟩, rfl,
    ⟨3, 0, 100, false⟩, List.mem_singleton.2 rfl, by decide, by decide, by decide, ?_⟩
  · intro c h _ h' e _
    have : c = 0 := by simpa using h'
    omega
  · intro e he; exact absurd he (hrel e)
  · intro e _ he; exact absurd he (hrel e)
  · intro e _ he; exact absurd he (hrel e)
  have key : (Cache.update { docView 0 with contains := fun c => c == 0, ents := fun _ => [⟨3, 0, 100, false⟩] } Cache.empty).map
      (fun c => (c.isBorder 3 0, (addEntries c (fun _ => none) [⟨⟨3, 0, 0⟩, ⟨3, 0, 0⟩, false, false⟩]).isSome)) = some (none, false) := by decide +kernel
  simp only [Option.map_eq_some_iff, Prod.mk.injEq] at key
  obtain ⟨c, h1, h2, h3⟩ := key
  exact ⟨c, h1, h2, Option.not_isSome_iff_eq_none.1 (by rw [h3]; decide)⟩

/-- C146 fails if a matrix is made consistent twice: the entries of the other processes are added again. -/
theorem C146_repeat_false : ∃ (M : Machine) (view : Nat → View) (links : Nat → List (List Link)) (msgs : List Message),
    Valid M view (fun _ _ _ => [0]) ∧ M.mapU = M.mapV ∧ ValidLinks M view (fun _ _ _ => [0]) links ∧ Exchange M view msgs ∧
    ∃ b P', fillPattern M links msgs (fun _ _ _ => false) = some (b, P') ∧ ∃ A A' A'' : Nat → Mat Int, (∀ q, (A q).pattern = P' q) ∧
      accumulate M b msgs A = some A' ∧ accumulate M b msgs A' = some A'' ∧ (A 0).get 3 6 = some 1 ∧ (A 1).get 1 2 = some 10 ∧
      (A' 0).get 3 6 = some 11 ∧ (A' 1).get 1 2 = some 11 ∧ (A'' 0).get 3 6 = some 22 ∧ (A'' 1).get 1 2 = some 22 := by
  refine ⟨docMachine fun _ d => d.index, docView, docLinks, docMessages, doc_galerkin, rfl, doc_links _, doc_exchange _, ?_⟩
  have key : ((fillPattern (docMachine fun _ d => d.index) docLinks docMessages fun _ _ _ => false).bind fun bP =>
      (accumulate (docMachine fun _ d => d.index) bP.1 docMessages (docMatrix bP.2)).bind fun A' =>
      (accumulate (docMachine fun _ d => d.index) bP.1 docMessages A').map fun A'' =>
      [(docMatrix bP.2 0).get 3 6, (docMatrix bP.2 1).get 1 2, (A' 0).get 3 6, (A' 1).get 1 2, (A'' 0).get 3 6, (A'' 1).get 1 2]) =
      some [some 1, some 10, some 11, some 11, some 22, some 22] := by decide +kernel
  simp only [Option.bind_eq_some_iff, Option.map_eq_some_iff, List.cons.injEq, and_true] at key
  obtain ⟨⟨b, P'⟩, h1, A', h2, A'', h3, h4⟩ := key
  exact ⟨b, P', h1, docMatrix P', A', A'', fun _ => rfl, h2, h3, h4.1, h4.2.1, h4.2.2.1, h4.2.2.2.1, h4.2.2.2.2.1, h4.2.2.2.2.2⟩

/-- C146 fails if test and trial space have different orderings: rows and columns are looked up in the wrong one. -/
theorem C146_spaces_false : ∃ (M : Machine) (view : Nat → View) (links : Nat → List (List Link)) (msgs : List Message),
    Valid M view (fun _ _ _ => [0]) ∧ ValidLinks M view (fun _ _ _ => [0]) links ∧ Exchange M view msgs ∧
    ∃ b P', fillPattern M links msgs (fun _ _ _ => false) = some (b, P') ∧ ∀ A : Nat → Mat Int, A = (fun q => ⟨P' q, fun _ _ => 1⟩) →
      accumulate M b msgs A = none := by
  refine ⟨docMachine fun _ d => 7 - d.index, docView, docLinks, docMessages, doc_valid ?_, doc_links _, doc_exchange _, ?_⟩
  · intro p d d' h h' hd
    have k := doc_dof h
    have k' := doc_dof h'
    have hlt : ∀ d, IsDof (docView p) (fun _ _ => [0]) d → d.gt = 0 → d.index < 8 := by
      rintro d ⟨e, he, h1, h2, _⟩ h0
      have := (doc_wf p).inRange e he
      rw [← h1, ← h2, h0] at this
      exact this
    have b1 := hlt d h k.1
    have b2 := hlt d' h' k'.1
    rcases d with ⟨a, b, c⟩
    rcases d' with ⟨a', b', c'⟩
    simp only at k k' hd b1 b2
    rw [k.1, k.2, k'.1, k'.2, show b = b' by omega]
  have key : ((fillPattern (docMachine fun _ d => 7 - d.index) docLinks docMessages fun _ _ _ => false).map fun bP =>
      (accumulate (docMachine fun _ d => 7 - d.index) bP.1 docMessages fun q => (⟨bP.2 q, fun _ _ => 1⟩ : Mat Int)).isSome) = some false := by decide +kernel
  simp only [Option.map_eq_some_iff] at key
  obtain ⟨⟨b, P'⟩, h1, h2⟩ := key
  refine ⟨b, P', h1, ?_⟩
  rintro _ rfl
  exact Option.not_isSome_iff_eq_none.1 (by rw [h2]; decide)

/-- Links of the DOFs with themselves only, e.g. a mass matrix with mass lumping. -/
def diagonalLinks (p : Nat) : List (List Link) := [(docVertices p).flatMap fun a => cellLinks p [a]]

private theorem diagonal_valid (mapU : Nat → Dof → Nat) : ValidLinks (docMachine mapU) docView (fun _ _ _ => [0]) diagonalLinks := by
  intro p hp ls hls l hl
  have hp : p < 2 := hp
  have key : ∀ p < 2, ∀ ls ∈ diagonalLinks p, ∀ l ∈ ls, ((docEnts p).any fun e => l.row.gt == e.gt && l.row.index == e.index && l.row.tree == 0) = true ∧
      ((docEnts p).any fun e => l.col.gt == e.gt && l.col.index == e.index && l.col.tree == 0) = true := by decide +kernel
  have h := key p hp ls hls l hl
  rw [List.any_eq_true, List.any_eq_true] at h
  obtain ⟨⟨e, he, h1⟩, ⟨e', he', h1'⟩⟩ := h
  simp only [Bool.and_eq_true, beq_iff_eq] at h1 h1'
  exact ⟨⟨e, (doc_relevant p e).2 he, h1.1.1, h1.1.2, by show l.row.tree ∈ [0]; rw [h1.2]; exact List.mem_singleton.2 rfl⟩,
    ⟨e', (doc_relevant p e').2 he', h1'.1.1, h1'.1.2, by rw [h1'.2]; exact List.mem_singleton.2 rfl⟩⟩

/-- C146 fails for one step grid operators whose second operator has fewer links than the first: the matrix lacks entries the first operator has links
for on other processes, so making it consistent is an exception. -/
theorem C146_onestep_false : ∃ (M : Machine) (view : Nat → View) (links0 links1 : Nat → List (List Link)) (msgs : List Message),
    Valid M view (fun _ _ _ => [0]) ∧ M.mapU = M.mapV ∧ ValidLinks M view (fun _ _ _ => [0]) links0 ∧ ValidLinks M view (fun _ _ _ => [0]) links1 ∧
    Exchange M view msgs ∧ ∃ b0 b1 P', fillPatternOneStep M links0 links1 msgs (fun _ _ _ => false) = some (b0, b1, P') ∧
      ∀ A : Nat → Mat Int, A = (fun q => ⟨P' q, fun _ _ => 1⟩) → accumulate M b0 msgs A = none := by
  refine ⟨docMachine fun _ d => d.index, docView, docLinks, diagonalLinks, docMessages, doc_galerkin, rfl, doc_links _, diagonal_valid _, doc_exchange _, ?_⟩
  have key : ((fillPatternOneStep (docMachine fun _ d => d.index) docLinks diagonalLinks docMessages fun _ _ _ => false).map fun bP =>
      (accumulate (docMachine fun _ d => d.index) bP.1 docMessages fun q => (⟨bP.2.2 q, fun _ _ => 1⟩ : Mat Int)).isSome) = some false := by decide +kernel
  simp only [Option.map_eq_some_iff] at key
  obtain ⟨⟨b0, b1, P'⟩, h1, h2⟩ := key
  refine ⟨b0, b1, P', h1, ?_⟩
  rintro _ rfl
  exact Option.not_isSome_iff_eq_none.1 (by rw [h2]; decide)

/-- C146 fails for one step grid operators whose second operator has more links than the first: the entries it alone has links for stay different on the
two processes. -/
theorem C146_onestep_links_false : ∃ (M : Machine) (view : Nat → View) (links0 links1 : Nat → List (List Link)) (msgs : List Message),
    Valid M view (fun _ _ _ => [0]) ∧ M.mapU = M.mapV ∧ ValidLinks M view (fun _ _ _ => [0]) links0 ∧ ValidLinks M view (fun _ _ _ => [0]) links1 ∧
    Exchange M view msgs ∧ ∃ b0 b1 P', fillPatternOneStep M links0 links1 msgs (fun _ _ _ => false) = some (b0, b1, P') ∧
      ∃ A A' : Nat → Mat Int, (∀ q, (A q).pattern = P' q) ∧ accumulate M b0 msgs A = some A' ∧ (A 0).get 3 6 = some 1 ∧ (A 1).get 1 2 = some 10 ∧
        (A' 0).get 3 6 = some 1 ∧ (A' 1).get 1 2 = some 10 := by
  refine ⟨docMachine fun _ d => d.index, docView, diagonalLinks, docLinks, docMessages, doc_galerkin, rfl, diagonal_valid _, doc_links _, doc_exchange _, ?_⟩
  have key : ((fillPatternOneStep (docMachine fun _ d => d.index) diagonalLinks docLinks docMessages fun _ _ _ => false).bind fun bP =>
      (accumulate (docMachine fun _ d => d.index) bP.1 docMessages (docMatrix bP.2.2)).map fun A' =>
      [(docMatrix bP.2.2 0).get 3 6, (docMatrix bP.2.2 1).get 1 2, (A' 0).get 3 6, (A' 1).get 1 2]) = some [some 1, some 10, some 1, some 10] := by
    decide +kernel
  simp only [Option.bind_eq_some_iff, Option.map_eq_some_iff, List.cons.injEq, and_true] at key
  obtain ⟨⟨b0, b1, P'⟩, h1, A', h2, h4⟩ := key
  exact ⟨b0, b1, P', h1, docMatrix P', A', fun _ => rfl, h2, h4.1, h4.2.1, h4.2.2.1, h4.2.2.2⟩

/- The hypotheses of `C146_onestep_partial` are met by the same links in both operators. -/
example : ∃ b0 b1 P', fillPatternOneStep (docMachine fun _ d => d.index) docLinks docLinks docMessages (fun _ _ _ => false) = some (b0, b1, P') := by
  obtain ⟨b0, b1, P', h, _⟩ := C146_onestep_partial (K := Int) doc_galerkin rfl (by decide) (doc_links _) (doc_links _) (fun _ _ _ _ h => h) (doc_exchange _)
    (doc_exchange _) fun _ _ _ => false
  exact ⟨b0, b1, P', h⟩

end Verif
