import Verif.Tables.Spec
/-!
# Invariants of the tables
-/
namespace Osp.Tables
variable {D V : Type}

/-! ### tables with generated keys -/

theorem foldl_max_ge (l : List Nat) (a : Nat) : a ≤ l.foldl Nat.max a ∧ ∀ x ∈ l, x ≤ l.foldl Nat.max a := by
  induction l generalizing a with
  | nil => exact ⟨Nat.le_refl _, fun x hx => (by cases hx)⟩
  | cons y l ih =>
    obtain ⟨h1, h2⟩ := ih (Nat.max a y)
    refine ⟨Nat.le_trans (Nat.le_max_left a y) h1, fun x hx => ?_⟩
    rcases List.mem_cons.1 hx with rfl | hx
    · exact Nat.le_trans (Nat.le_max_right a x) h1
    · exact h2 x hx

theorem fresh_gt {α : Type} {t : List (Idx × α)} {r : Idx × α} (h : r ∈ t) : r.1 < fresh t :=
  Nat.lt_succ_of_le ((foldl_max_ge _ 0).2 _ (List.mem_map.2 ⟨r, h, rfl⟩))

/-- Keys and values of a table determine each other. -/
structure Bij {α : Type} (t : List (Idx × α)) : Prop where
  keys : (t.map Prod.fst).Nodup
  vals : (t.map Prod.snd).Nodup

theorem nodup_map_inj {α β : Type} {f : α → β} {l : List α} (h : (l.map f).Nodup) {a b : α} (ha : a ∈ l) (hb : b ∈ l) (e : f a = f b) : a = b := by
  induction l with
  | nil => cases ha
  | cons x l ih =>
    rw [List.map_cons, List.nodup_cons] at h
    rcases List.mem_cons.1 ha with rfl | ha' <;> rcases List.mem_cons.1 hb with rfl | hb'
    · rfl
    · exact absurd (List.mem_map.2 ⟨b, hb', e.symm⟩) h.1
    · exact absurd (List.mem_map.2 ⟨a, ha', e⟩) h.1
    · exact ih h.2 ha' hb'

theorem Bij.fun_ {α : Type} {t : List (Idx × α)} (h : Bij t) {i : Idx} {a b : α} (ha : (i, a) ∈ t) (hb : (i, b) ∈ t) : a = b :=
  congrArg Prod.snd (nodup_map_inj h.keys ha hb rfl)

theorem Bij.inj {α : Type} {t : List (Idx × α)} (h : Bij t) {i j : Idx} {a : α} (ha : (i, a) ∈ t) (hb : (j, a) ∈ t) : i = j :=
  congrArg Prod.fst (nodup_map_inj h.vals ha hb rfl)

theorem Bij.nil {α : Type} : Bij ([] : List (Idx × α)) := ⟨List.nodup_nil, List.nodup_nil⟩

theorem Bij.snoc {α : Type} {t : List (Idx × α)} (h : Bij t) {x : α} (hx : ∀ r ∈ t, r.2 ≠ x) : Bij (t ++ [(fresh t, x)]) := by
  constructor
  · rw [List.map_append, List.nodup_append]
    refine ⟨h.keys, by simp, ?_⟩
    intro a ha b hb
    simp only [List.map_cons, List.map_nil, List.mem_singleton] at hb
    obtain ⟨r, hr, rfl⟩ := List.mem_map.1 ha
    rw [hb]
    exact Nat.ne_of_lt (fresh_gt hr)
  · rw [List.map_append, List.nodup_append]
    refine ⟨h.vals, by simp, ?_⟩
    intro a ha b hb
    simp only [List.map_cons, List.map_nil, List.mem_singleton] at hb
    obtain ⟨r, hr, rfl⟩ := List.mem_map.1 ha
    rw [hb]
    exact hx r hr

structure IdxOk {α : Type} (x : α) (t : List (Idx × α)) (i : Idx) (t' : List (Idx × α)) : Prop where
  mem : (i, x) ∈ t'
  sub : ∀ r ∈ t, r ∈ t'
  bij : Bij t'
  only : ∀ r ∈ t', r ∈ t ∨ r = (i, x)

theorem getIdx_ok {α : Type} [DecidableEq α] (x : α) {t : List (Idx × α)} (h : Bij t) : IdxOk x t (getIdx x t).1 (getIdx x t).2 := by
  unfold getIdx
  split
  · rename_i r hr
    have h1 := List.mem_of_find?_eq_some hr
    have h2 := List.find?_some hr
    simp only [decide_eq_true_eq] at h2
    exact ⟨h2 ▸ h1, fun _ h => h, h, fun _ h => Or.inl h⟩
  · rename_i hn
    rw [List.find?_eq_none] at hn
    refine ⟨by simp, fun r hr => List.mem_append_left _ hr, h.snoc (fun r hr e => hn r hr (by simpa using e)), ?_⟩
    intro r hr
    rcases List.mem_append.1 hr with hr | hr
    · exact Or.inl hr
    · exact Or.inr (by simpa using hr)

theorem cacheIdx_some {t : List (Idx × Iri)} {n : Iri} {i : Idx} (h : cacheIdx t n = some i) : (i, n) ∈ t := by
  unfold cacheIdx at h
  rw [Option.map_eq_some_iff] at h
  obtain ⟨r, hr, rfl⟩ := h
  have h1 := List.mem_of_find?_eq_some hr
  have h2 := List.find?_some hr
  simp only [decide_eq_true_eq] at h2
  rw [List.mem_reverse] at h1
  exact h2 ▸ h1

theorem cacheIdx_none {t : List (Idx × Iri)} {n : Iri} (h : cacheIdx t n = none) : ∀ r ∈ t, r.2 ≠ n := by
  unfold cacheIdx at h
  rw [Option.map_eq_none_iff, List.find?_eq_none] at h
  intro r hr e
  exact h r (List.mem_reverse.2 hr) (by simpa using e)

theorem cacheIdx_snoc (t : List (Idx × Iri)) (k : Idx) (n : Iri) : cacheIdx (t ++ [(k, n)]) n = some k := by
  simp [cacheIdx]

theorem lookup_mem {α : Type} {t : List (Idx × α)} {i : Idx} {a : α} (h : t.lookup i = some a) : (i, a) ∈ t := by
  induction t with
  | nil => cases h
  | cons r t ih =>
    obtain ⟨k, b⟩ := r
    rw [List.lookup_cons] at h
    by_cases hk : i = k
    · subst hk; simp at h; subst h; exact List.mem_cons_self ..
    · have : (i == k) = false := by simpa using hk
      rw [this] at h
      exact List.mem_cons_of_mem _ (ih h)

theorem lookup_of_mem {α : Type} {t : List (Idx × α)} (hb : Bij t) {i : Idx} {a : α} (h : (i, a) ∈ t) : t.lookup i = some a := by
  cases hl : t.lookup i with
  | some b => rw [hb.fun_ h (lookup_mem hl)]
  | none =>
    exfalso
    clear hb
    induction t with
    | nil => cases h
    | cons r t ih =>
      obtain ⟨k, b⟩ := r
      rw [List.lookup_cons] at hl
      by_cases hk : i = k
      · subst hk; simp at hl
      · have e : (i == k) = false := by simpa using hk
        rw [e] at hl
        rcases List.mem_cons.1 h with h | h
        · cases h; exact hk rfl
        · exact ih h hl

/-! ### the database -/

/-- `(i, u)` is a row of the table of the CUDS objects. -/
def C (db : Db D V) (i : Idx) (u : Uid) : Prop := (i, u) ∈ db.cuds

/-- Row `i` of the table of the entities stands for the IRI `x`. -/
def E (db : Db D V) (i : Idx) (x : Iri) : Prop := ∃ n name m, (i, (n, name)) ∈ db.ents ∧ (n, m) ∈ db.ns ∧ x = m ++ name

/-- The triples in the tables. -/
def Has (O : Onto D) (db : Db D V) (t : Triple D V) : Prop :=
  match t.o with
  | .ent i => t.p = O.rdfType ∧ ∃ a b, C db a t.s ∧ E db b i ∧ (a, b) ∈ db.types
  | .cuds u => ∃ a e b, C db a t.s ∧ E db e t.p ∧ C db b u ∧ (a, e, b) ∈ db.rels
  | .lit none _ => False
  | .lit (some d) v => d ∈ db.dts ∧ ∃ a e, C db a t.s ∧ E db e t.p ∧ (a, e, v) ∈ db.data d

structure Inv (O : Onto D) (st : St D V) : Prop where
  cache : st.cache = st.db.ns
  ns : Bij st.db.ns
  cuds : Bij st.db.cuds
  ents : Bij st.db.ents
  eref : ∀ r ∈ st.db.ents, ∃ m, (r.2.1, m) ∈ st.db.ns ∧ O.nsOf (m ++ r.2.2) = m
  tref : ∀ r ∈ st.db.types, (∃ u, C st.db r.1 u) ∧ ∃ x, E st.db r.2 x
  rref : ∀ r ∈ st.db.rels, (∃ u, C st.db r.1 u) ∧ (∃ x, E st.db r.2.1 x) ∧ ∃ u, C st.db r.2.2 u
  dref : ∀ d, ∀ r ∈ st.db.data d, (∃ u, C st.db r.1 u) ∧ ∃ x, E st.db r.2.1 x
  dts : ∀ d, d ∉ st.db.dts → st.db.data d = []

theorem Inv.C_fun {O : Onto D} {st : St D V} (h : Inv O st) {i : Idx} {u v : Uid} (hu : C st.db i u) (hv : C st.db i v) : u = v := h.cuds.fun_ hu hv
theorem Inv.C_inj {O : Onto D} {st : St D V} (h : Inv O st) {i j : Idx} {u : Uid} (hu : C st.db i u) (hv : C st.db j u) : i = j := h.cuds.inj hu hv

theorem Inv.E_fun {O : Onto D} {st : St D V} (h : Inv O st) {i : Idx} {x y : Iri} (hx : E st.db i x) (hy : E st.db i y) : x = y := by
  obtain ⟨n, name, m, h1, h2, rfl⟩ := hx
  obtain ⟨n', name', m', h1', h2', rfl⟩ := hy
  have e := h.ents.fun_ h1 h1'
  cases e
  rw [h.ns.fun_ h2 h2']

theorem Inv.E_ns {O : Onto D} {st : St D V} (h : Inv O st) {i n : Idx} {name m : Iri} (h1 : (i, (n, name)) ∈ st.db.ents) (h2 : (n, m) ∈ st.db.ns) : O.nsOf (m ++ name) = m := by
  obtain ⟨m', h3, h4⟩ := h.eref _ h1
  rw [h.ns.fun_ h2 h3]; exact h4

theorem Inv.E_inj {O : Onto D} {st : St D V} (h : Inv O st) {i j : Idx} {x : Iri} (hx : E st.db i x) (hy : E st.db j x) : i = j := by
  obtain ⟨n, name, m, h1, h2, rfl⟩ := hx
  obtain ⟨n', name', m', h1', h2', e⟩ := hy
  have e1 := h.E_ns h1 h2
  have e2 := h.E_ns h1' h2'
  rw [← e, e1] at e2
  subst e2
  have en := h.ns.inj h2 h2'
  subst en
  have := List.append_cancel_left e
  subst this
  exact h.ents.inj h1 h1'

/-- The rows of the triples are the same, the other tables may have grown. -/
structure Ext (db db' : Db D V) : Prop where
  ns : ∀ r ∈ db.ns, r ∈ db'.ns
  cuds : ∀ r ∈ db.cuds, r ∈ db'.cuds
  ents : ∀ r ∈ db.ents, r ∈ db'.ents
  types : db'.types = db.types
  rels : db'.rels = db.rels
  dts : db'.dts = db.dts
  data : db'.data = db.data

theorem Ext.refl (db : Db D V) : Ext db db := ⟨fun _ h => h, fun _ h => h, fun _ h => h, rfl, rfl, rfl, rfl⟩

theorem Ext.trans {a b c : Db D V} (h : Ext a b) (k : Ext b c) : Ext a c :=
  ⟨fun r hr => k.ns r (h.ns r hr), fun r hr => k.cuds r (h.cuds r hr), fun r hr => k.ents r (h.ents r hr), k.types.trans h.types, k.rels.trans h.rels, k.dts.trans h.dts,
    k.data.trans h.data⟩

theorem Ext.C {a b : Db D V} (h : Ext a b) {i : Idx} {u : Uid} (hc : C a i u) : C b i u := h.cuds _ hc
theorem Ext.E {a b : Db D V} (h : Ext a b) {i : Idx} {x : Iri} (hc : E a i x) : E b i x := by
  obtain ⟨n, name, m, h1, h2, e⟩ := hc
  exact ⟨n, name, m, h.ents _ h1, h.ns _ h2, e⟩

theorem Ext.C_back {O : Onto D} {a b : St D V} (h : Ext a.db b.db) (hb : Inv O b) {i : Idx} {u : Uid} (hr : ∃ u, Tables.C a.db i u) (hc : Tables.C b.db i u) : Tables.C a.db i u := by
  obtain ⟨w, hw⟩ := hr
  rw [hb.C_fun hc (h.C hw)]; exact hw

theorem Ext.E_back {O : Onto D} {a b : St D V} (h : Ext a.db b.db) (hb : Inv O b) {i : Idx} {x : Iri} (hr : ∃ x, Tables.E a.db i x) (hc : Tables.E b.db i x) : Tables.E a.db i x := by
  obtain ⟨w, hw⟩ := hr
  rw [hb.E_fun hc (h.E hw)]; exact hw

theorem has_ext {O : Onto D} {a b : St D V} (ha : Inv O a) (hb : Inv O b) (h : Ext a.db b.db) (t : Triple D V) : Has O b.db t ↔ Has O a.db t := by
  obtain ⟨s, p, o⟩ := t
  match o with
  | .ent i =>
    show (_ ∧ _) ↔ (_ ∧ _)
    refine and_congr_right fun _ => ⟨?_, ?_⟩
    · rintro ⟨x, y, h1, h2, h3⟩
      rw [h.types] at h3
      exact ⟨x, y, h.C_back hb (ha.tref _ h3).1 h1, h.E_back hb (ha.tref _ h3).2 h2, h3⟩
    · rintro ⟨x, y, h1, h2, h3⟩
      exact ⟨x, y, h.C h1, h.E h2, by rw [h.types]; exact h3⟩
  | .cuds u =>
    constructor
    · rintro ⟨x, y, z, h1, h2, h3, h4⟩
      rw [h.rels] at h4
      obtain ⟨r1, r2, r3⟩ := ha.rref _ h4
      exact ⟨x, y, z, h.C_back hb r1 h1, h.E_back hb r2 h2, h.C_back hb r3 h3, h4⟩
    · rintro ⟨x, y, z, h1, h2, h3, h4⟩
      exact ⟨x, y, z, h.C h1, h.E h2, h.C h3, by rw [h.rels]; exact h4⟩
  | .lit none v => exact Iff.rfl
  | .lit (some d) v =>
    show (_ ∧ _) ↔ (_ ∧ _)
    rw [h.dts]
    refine and_congr_right fun _ => ⟨?_, ?_⟩
    · rintro ⟨x, y, h1, h2, h3⟩
      rw [h.data] at h3
      exact ⟨x, y, h.C_back hb (ha.dref _ _ h3).1 h1, h.E_back hb (ha.dref _ _ h3).2 h2, h3⟩
    · rintro ⟨x, y, h1, h2, h3⟩
      exact ⟨x, y, h.C h1, h.E h2, by rw [h.data]; exact h3⟩

/-- The invariant carries over to an extension whose key tables are fine. -/
theorem Inv.extend {O : Onto D} {a b : St D V} (ha : Inv O a) (h : Ext a.db b.db) (hc : b.cache = b.db.ns) (hn : Bij b.db.ns) (hu : Bij b.db.cuds) (he : Bij b.db.ents)
    (hr : ∀ r ∈ b.db.ents, ∃ m, (r.2.1, m) ∈ b.db.ns ∧ O.nsOf (m ++ r.2.2) = m) : Inv O b := by
  refine ⟨hc, hn, hu, he, hr, ?_, ?_, ?_, ?_⟩
  · intro r hr
    rw [h.types] at hr
    obtain ⟨⟨u, h1⟩, ⟨x, h2⟩⟩ := ha.tref r hr
    exact ⟨⟨u, h.C h1⟩, ⟨x, h.E h2⟩⟩
  · intro r hr
    rw [h.rels] at hr
    obtain ⟨⟨u, h1⟩, ⟨x, h2⟩, ⟨w, h3⟩⟩ := ha.rref r hr
    exact ⟨⟨u, h.C h1⟩, ⟨x, h.E h2⟩, ⟨w, h.C h3⟩⟩
  · intro d r hr
    rw [h.data] at hr
    obtain ⟨⟨u, h1⟩, ⟨x, h2⟩⟩ := ha.dref d r hr
    exact ⟨⟨u, h.C h1⟩, ⟨x, h.E h2⟩⟩
  · intro d hd
    rw [h.dts] at hd
    rw [h.data]; exact ha.dts d hd

structure StepOk (O : Onto D) (st st' : St D V) : Prop where
  inv : Inv O st'
  ext : Ext st.db st'.db

theorem StepOk.trans {O : Onto D} {a b c : St D V} (h : StepOk O a b) (k : StepOk O b c) : StepOk O a c := ⟨k.inv, h.ext.trans k.ext⟩

theorem cudsIdx_ok {O : Onto D} {st : St D V} (h : Inv O st) (u : Uid) : StepOk O st (cudsIdx u st).2 ∧ C (cudsIdx u st).2.db (cudsIdx u st).1 u := by
  have k := getIdx_ok u h.cuds
  have e : Ext st.db (cudsIdx u st).2.db := ⟨fun _ h => h, k.sub, fun _ h => h, rfl, rfl, rfl, rfl⟩
  exact ⟨⟨h.extend e h.cache h.ns k.bij h.ents h.eref, e⟩, k.mem⟩

theorem getNsIdx_ok {O : Onto D} {st : St D V} (h : Inv O st) (n : Iri) : StepOk O st (getNsIdx n st).2 ∧ ((getNsIdx n st).1, n) ∈ (getNsIdx n st).2.db.ns := by
  unfold getNsIdx
  cases hc : cacheIdx st.cache n with
  | some i =>
    have := cacheIdx_some hc
    rw [h.cache] at this
    exact ⟨⟨h, Ext.refl _⟩, this⟩
  | none =>
    have hn := cacheIdx_none hc
    rw [h.cache] at hn
    dsimp only
    rw [cacheIdx_snoc]
    have e : Ext st.db { st.db with ns := st.db.ns ++ [(fresh st.db.ns, n)] } := ⟨fun _ h => List.mem_append_left _ h, fun _ h => h, fun _ h => h, rfl, rfl, rfl, rfl⟩
    refine ⟨⟨h.extend e rfl (h.ns.snoc hn) h.cuds h.ents ?_, e⟩, by simp⟩
    intro r hr
    obtain ⟨m, h1, h2⟩ := h.eref r hr
    exact ⟨m, List.mem_append_left _ h1, h2⟩

theorem Onto.WF.join {O : Onto D} (hO : O.WF) (i : Iri) : O.nsOf i ++ O.nameOf i = i := by
  obtain ⟨t, ht⟩ := hO i
  unfold Onto.nameOf
  have : (O.nsOf i ++ t).drop (O.nsOf i).length = t := List.drop_left
  rw [ht] at this
  rw [this, ht]

theorem split_ok {O : Onto D} {st : St D V} (h : Inv O st) (i : Iri) :
    StepOk O st (split O i st).2 ∧ (split O i st).1.2 = O.nameOf i ∧ ((split O i st).1.1, O.nsOf i) ∈ (split O i st).2.db.ns := by
  obtain ⟨h1, h2⟩ := getNsIdx_ok h (O.nsOf i)
  exact ⟨h1, rfl, h2⟩

theorem entIdx_ok {O : Onto D} (hO : O.WF) {st : St D V} (h : Inv O st) (i : Iri) : StepOk O st (entIdx O i st).2 ∧ E (entIdx O i st).2.db (entIdx O i st).1 i := by
  obtain ⟨h1, h2, h3⟩ := split_ok h i
  unfold entIdx
  generalize hs : split O i st = x at h1 h2 h3
  obtain ⟨⟨n, name⟩, st1⟩ := x
  dsimp only at h1 h2 h3 ⊢
  have k := getIdx_ok (n, name) h1.inv.ents
  have e : Ext st1.db { st1.db with ents := (getIdx (n, name) st1.db.ents).2 } := ⟨fun _ h => h, fun _ h => h, k.sub, rfl, rfl, rfl, rfl⟩
  refine ⟨h1.trans ⟨h1.inv.extend e h1.inv.cache h1.inv.ns h1.inv.cuds k.bij ?_, e⟩, ?_⟩
  · intro r hr
    rcases k.only r hr with hr | rfl
    · exact h1.inv.eref r hr
    · refine ⟨O.nsOf i, h3, ?_⟩
      dsimp only
      rw [h2, hO.join]
  · exact ⟨n, name, O.nsOf i, k.mem, h3, by rw [h2, hO.join]⟩

theorem splitOpt_ok {O : Onto D} {st : St D V} (h : Inv O st) (i : Option Iri) :
    StepOk O st (splitOpt O i st).2 ∧ (∀ e, (splitOpt O i st).1 = some e → ∃ x, i = some x ∧ e.2 = O.nameOf x ∧ (e.1, O.nsOf x) ∈ (splitOpt O i st).2.db.ns) ∧
      ((splitOpt O i st).1 = none → i = none) := by
  cases i with
  | none => exact ⟨⟨h, Ext.refl _⟩, fun e he => (by cases he), fun _ => rfl⟩
  | some x =>
    obtain ⟨h1, h2, h3⟩ := split_ok h x
    refine ⟨h1, ?_, fun e => (by cases e)⟩
    intro e he
    cases he
    exact ⟨x, rfl, h2, h3⟩

/-- The condition on an entity selects the rows of its IRI. -/
theorem ent_cond {O : Onto D} (hO : O.WF) {st : St D V} (h : Inv O st) {x : Iri} {e : Idx × Iri} (h1 : e.2 = O.nameOf x) (h2 : (e.1, O.nsOf x) ∈ st.db.ns) {i : Idx} {r : Idx × Iri}
    (hr : (i, r) ∈ st.db.ents) {m : Iri} (hm : (r.1, m) ∈ st.db.ns) : r = e ↔ m ++ r.2 = x := by
  constructor
  · rintro rfl
    rw [h1, h.ns.fun_ hm h2, hO.join]
  · rintro rfl
    have e1 := h.E_ns hr hm
    have e2 := hO.join (m ++ r.2)
    rw [e1] at e2 h2
    have e3 := List.append_cancel_left e2
    rw [e3] at h1
    exact Prod.ext (h.ns.inj hm h2) h1.symm

theorem cudsIdxOpt_ok {O : Onto D} {st : St D V} (h : Inv O st) (u : Option Uid) :
    StepOk O st (cudsIdxOpt u st).2 ∧ (∀ i, (cudsIdxOpt u st).1 = some i → ∃ x, u = some x ∧ C (cudsIdxOpt u st).2.db i x) ∧ ((cudsIdxOpt u st).1 = none → u = none) := by
  cases u with
  | none => exact ⟨⟨h, Ext.refl _⟩, fun e he => (by cases he), fun _ => rfl⟩
  | some x =>
    obtain ⟨h1, h2⟩ := cudsIdx_ok h x
    refine ⟨h1, ?_, fun e => (by cases e)⟩
    intro i hi
    cases hi
    exact ⟨x, rfl, h2⟩

theorem entIdxOpt_ok {O : Onto D} (hO : O.WF) {st : St D V} (h : Inv O st) (i : Option Iri) :
    StepOk O st (entIdxOpt O i st).2 ∧ (∀ k, (entIdxOpt O i st).1 = some k → ∃ x, i = some x ∧ E (entIdxOpt O i st).2.db k x) ∧ ((entIdxOpt O i st).1 = none → i = none) := by
  cases i with
  | none => exact ⟨⟨h, Ext.refl _⟩, fun e he => (by cases he), fun _ => rfl⟩
  | some x =>
    obtain ⟨h1, h2⟩ := entIdx_ok hO h x
    refine ⟨h1, ?_, fun e => (by cases e)⟩
    intro i hi
    cases hi
    exact ⟨x, rfl, h2⟩

end Osp.Tables
