import Verif.Access.Spec
import Verif.Value.Props
import Verif.Onto.AttrProps
/-!
# The attributes of CUDS objects by name: theorems (C101)
-/
namespace Osp.Access
open Osp.Onto (Name Kwargs AttrInfo)
open Osp.Value (Val Lit Fl)
open Osp.Yaml (Conv getPython)

variable {F P : Type}

/-! ### which attribute a name stands for -/

theorem find_first {α : Type} {p : α → Bool} {l : List α} {a : α} : l.find? p = some a ↔ ∃ pre post, l = pre ++ a :: post ∧ p a = true ∧ ∀ b ∈ pre, p b = false := by
  rw [List.find?_eq_some_iff_append]
  constructor
  · rintro ⟨h, pre, post, e, hb⟩
    exact ⟨pre, post, e, h, fun b m => by simpa using hb b m⟩
  · rintro ⟨pre, post, e, h, hb⟩
    exact ⟨h, pre, post, e, fun b m => by simpa using hb b m⟩

theorem spells_iff {n : Name} {a : OAttr} : (a.argname == n || a.argname.lower == n) = true ↔ Spells n a := by
  unfold Spells
  simp only [Bool.or_eq_true, beq_iff_eq]
  constructor
  · rintro (h | h)
    · exact .inl h.symm
    · exact .inr h.symm
  · rintro (h | h)
    · exact .inl h.symm
    · exact .inr h.symm

theorem meant_iff {c : Cls F} {n : Name} {a : OAttr} : meant c n = some a ↔ StandsFor c n a := by
  unfold meant Onto.attributeByArgname StandsFor
  rw [find_first]
  constructor
  · rintro ⟨pre, post, e, h, hb⟩
    exact ⟨pre, post, e, spells_iff.1 h, fun b m hs => absurd (spells_iff.2 hs) (by rw [hb b m]; decide)⟩
  · rintro ⟨pre, post, e, h, hb⟩
    refine ⟨pre, post, e, spells_iff.2 h, fun b m => ?_⟩
    cases hq : (b.argname == n || b.argname.lower == n)
    · rfl
    · exact absurd (spells_iff.1 hq) (hb b m)

theorem meant_none {c : Cls F} {n : Name} : meant c n = none ↔ ∀ a, ¬ StandsFor c n a := by
  constructor
  · intro h a ha
    rw [meant_iff.2 ha] at h
    cases h
  · intro h
    cases hm : meant c n with
    | none => rfl
    | some a => exact absurd (meant_iff.1 hm) (h a)

theorem standsFor_unique {c : Cls F} {n : Name} {a b : OAttr} (ha : StandsFor c n a) (hb : StandsFor c n b) : a = b := by
  have := meant_iff.2 ha
  rw [meant_iff.2 hb] at this
  exact (Option.some.inj this).symm

/-- **C101.** If no two attributes share a spelling, both spellings of every attribute stand for it, and a name stands for an attribute only if it spells it. -/
theorem both_spellings {c : Cls F} (hd : Distinct c) {a : OAttr} {i : AttrInfo (Val F)} (ha : (a, i) ∈ c.attrs) (n : Name) : StandsFor c n a ↔ Spells n a := by
  constructor
  · rintro ⟨_, _, _, h, _⟩
    exact h
  · intro hs
    obtain ⟨pre, post, e⟩ := List.append_of_mem ha
    refine ⟨pre.map (·.1), post.map (·.1), by rw [e]; simp, hs, ?_⟩
    intro b hb hsb
    obtain ⟨⟨b', j⟩, hm, rfl⟩ := List.mem_map.1 hb
    unfold Distinct at hd
    rw [e, List.pairwise_append] at hd
    exact (hd.2.2 _ hm _ (List.mem_cons_self ..)).1 n ⟨hsb, hs⟩

/-- **C101.** A name that is a spelling of an earlier attribute never stands for a later one: an attribute whose name is the lower case form of an earlier one cannot be reached by name at all. -/
theorem shadowed {c : Cls F} {pre post : List (OAttr × AttrInfo (Val F))} {a b : OAttr} {i j : AttrInfo (Val F)} (e : c.attrs = pre ++ (a, i) :: post) (hb : (b, j) ∈ pre)
    (hba : b.argname.map Char.toLower = a.argname) (hlow : a.argname.map Char.toLower = a.argname) (hin : ∀ x ∈ pre, x.1 ≠ a) (n : Name) : ¬ StandsFor c n a := by
  intro h
  have hs : n = a.argname := by
    obtain ⟨_, _, _, hs, _⟩ := h
    rcases hs with h | h
    · exact h
    · rw [h, hlow]
  obtain ⟨pre', post', e', _, hp⟩ := h
  have hsb : Spells n b := .inr (by rw [hs, hba])
  rw [e, List.map_append, List.map_cons] at e'
  rcases List.append_eq_append_iff.1 e' with ⟨m, h1, h2⟩ | ⟨m, h1, h2⟩
  · exact hp b (h1 ▸ List.mem_append_left _ (List.mem_map_of_mem hb)) hsb
  · cases m with
    | nil =>
      rw [List.append_nil] at h1
      exact hp b (h1 ▸ List.mem_map_of_mem hb) hsb
    | cons x m =>
      rw [List.cons_append] at h2
      injection h2 with h2 _
      have : a ∈ pre.map (·.1) := by rw [h1, h2]; simp
      obtain ⟨x', hm, hx⟩ := List.mem_map.1 this
      exact hin x' hm hx

/-! ### reading -/

theorem private_iff {n : Name} : private? n = true ↔ n.head? = some '_' := by
  unfold private?
  simp

theorem lookup_fine {o : Obj F P} (hf : Fine o) {n : Name} (h : n.head? ≠ some '_') : o.plain.lookup n = none := by
  rw [List.lookup_eq_none_iff]
  intro e he
  have := (hf e he).1
  simp only [bne_iff_ne, ne_eq]
  rintro rfl
  exact h this

theorem get_ordinary {S : Session F} {o : Obj F P} (hf : Fine o) {n : Name} (h : Ordinary n) : get S o n = getOnto S o n := by
  unfold get
  rw [if_neg h.1, lookup_fine hf h.2.2]
  simp only
  rw [if_neg h.2.1]

theorem find_held {b : Body F} {a : OAttr} {l : Lit F} (h : HasValue b a l) : b.vals.find? (fun x => x.1 == a.id.iri) = some (a.id.iri, l) := by
  cases hf : b.vals.find? (fun x => x.1 == a.id.iri) with
  | none =>
    have := List.find?_eq_none.1 hf (a.id.iri, l) ((h l).2 rfl)
    simp at this
  | some p =>
    obtain ⟨p1, l'⟩ := p
    have h1 := List.find?_some hf
    simp only [beq_iff_eq] at h1
    subst h1
    rw [(h l').1 (List.mem_of_find?_eq_some hf)]

theorem find_unheld {b : Body F} {a : OAttr} (h : NoValue b a) : b.vals.find? (fun x => x.1 == a.id.iri) = none := by
  rw [List.find?_eq_none]
  rintro ⟨p, l⟩ hm hp
  have : p = a.id.iri := by simpa using hp
  exact h l (this ▸ hm)

/-- **C101.** Reading an ordinary name that stands for an attribute gives the value the object has for it after its session was told about the read, whatever the session has under that name, and
for wrappers too. The object is what the session left. -/
theorem get_value {S : Session F} {o : Obj F P} (hf : Fine o) {n : Name} (hn : Ordinary n) {c : Cls F} (hc : o.body.classes.head? = some c) {a : OAttr} (ha : StandsFor c n a) {b : Body F}
    (hr : S.onRead o.body = (.ok (), b)) {l : Lit F} (hl : HasValue b a l) :
    get S o n = (.ok (.value (Value.toPython l)), { o with body := b, log := o.log ++ [.read] }) := by
  rw [get_ordinary hf hn]
  simp only [getOnto, hc, hr, meant_iff.2 ha, find_held hl]

/-- **C101.** An ordinary name that stands for no attribute, or for one without a value, is an AttributeError for an object that is no wrapper, or whose session has no such attribute; for a wrapper whose
session has one, it is that of the session. In each case the session is told about a read first. -/
theorem get_missing {S : Session F} {o : Obj F P} (hf : Fine o) {n : Name} (hn : Ordinary n) {c : Cls F} (hc : o.body.classes.head? = some c) {b : Body F} (hr : S.onRead o.body = (.ok (), b))
    (hm : ∀ a, StandsFor c n a → NoValue b a) :
    ((∃ k ∈ b.classes, k.wrapper = true) ∧ S.has n = true → get S o n = (.ok (.sess n), { o with body := b, log := o.log ++ [.read] })) ∧
    (¬ ((∃ k ∈ b.classes, k.wrapper = true) ∧ S.has n = true) → get S o n = (.error .attributeError, { o with body := b, log := o.log ++ [.read] })) := by
  have e : get S o n = fallback S { o with body := b, log := o.log ++ [.read] } n := by
    rw [get_ordinary hf hn]
    cases hq : meant c n with
    | none => simp only [getOnto, hc, hr, hq]
    | some a => simp only [getOnto, hc, hr, hq, find_unheld (hm a (meant_iff.1 hq))]
  rw [e]
  unfold fallback
  simp only [Bool.and_eq_true, List.any_eq_true]
  exact ⟨fun h => if_pos h, fun h => if_neg h⟩

/-- **C101.** Reading what is no member and no value never invents anything: the only answers are members under their own name, what the user put on the object, a value the object holds for an attribute
the name stands for, or the session's attribute for a wrapper. -/
theorem get_sources (S : Session F) (o : Obj F P) (n : Name) {r : Res F P} {o' : Obj F P} (h : get S o n = (.ok r, o')) :
    (r = .member n ∧ (n ∈ properties ∨ n ∈ methods) ∧ o' = o) ∨ (∃ p, r = .plain p ∧ (n, p) ∈ o.plain ∧ n ∉ properties ∧ o' = o) ∨
    (∃ c a l, r = .value (Value.toPython l) ∧ o.body.classes.head? = some c ∧ StandsFor c n a ∧ (a.id.iri, l) ∈ o'.body.vals ∧ n ∉ properties ∧ n ∉ methods) ∨
    (r = .sess n ∧ S.has n = true ∧ (∃ k ∈ o'.body.classes, k.wrapper = true) ∧ n ∉ properties ∧ n ∉ methods) := by
  unfold get at h
  split at h
  · rename_i hp
    injection h with h1 h2
    injection h1 with h1
    exact .inl ⟨h1.symm, .inl hp, h2.symm⟩
  · rename_i hp
    split at h
    · rename_i p hl
      injection h with h1 h2
      injection h1 with h1
      refine .inr (.inl ⟨p, h1.symm, ?_, hp, h2.symm⟩)
      obtain ⟨l1, l2, e, _⟩ := List.lookup_eq_some_iff.1 hl
      rw [e]
      simp
    · split at h
      · rename_i hm
        injection h with h1 h2
        injection h1 with h1
        exact .inl ⟨h1.symm, .inr hm, h2.symm⟩
      · rename_i hm
        have fb : ∀ o1 : Obj F P, fallback S o1 n = (.ok r, o') → r = .sess n ∧ S.has n = true ∧ (∃ k ∈ o'.body.classes, k.wrapper = true) ∧ n ∉ properties ∧ n ∉ methods := by
          intro o1 h
          unfold fallback at h
          split at h
          · rename_i hw
            injection h with h1 h2
            injection h1 with h1
            simp only [Bool.and_eq_true, List.any_eq_true] at hw
            exact ⟨h1.symm, hw.2, h2 ▸ hw.1, hp, hm⟩
          · injection h with h1 _
            cases h1
        unfold getOnto at h
        split at h
        · exact .inr (.inr (.inr (fb _ h)))
        · rename_i c hc
          simp only at h
          split at h
          · exact .inr (.inr (.inr (fb _ h)))
          · injection h with h1 _
            cases h1
          · split at h
            · exact .inr (.inr (.inr (fb _ h)))
            · rename_i a ha
              split at h
              · exact .inr (.inr (.inr (fb _ h)))
              · rename_i p l hl
                injection h with h1 h2
                injection h1 with h1
                refine .inr (.inr (.inl ⟨c, a, l, h1.symm, hc, meant_iff.1 ha, ?_, hp, hm⟩))
                have e := List.find?_some hl
                simp only [beq_iff_eq] at e
                rw [← e, ← h2]
                exact List.mem_of_find?_eq_some hl

/-! ### writing -/

theorem set_ordinary {fl : Fl F} {S : Session F} {o : Obj F P} {n : Name} (h : n.head? ≠ some '_') (x : New F P) : set fl S o n x = setOnto fl S o n x.val := by
  unfold set
  rw [if_neg (fun hp => h (private_iff.1 hp))]

theorem mem_gset {g : List (Text × Lit F)} {p : Text} {l : Lit F} {e : Text × Lit F} : e ∈ Value.gset g p l ↔ (e ∈ g ∧ e.1 ≠ p) ∨ e = (p, l) := by
  unfold Value.gset
  simp only [List.mem_append, List.mem_filter, bne_iff_ne, ne_eq, List.mem_singleton]

/-- **C101.** Setting a name that stands for an attribute: the session is told about the read, then the value is converted and stored as the only one of that attribute, then the session is told about the
update. All other attributes, the classes and the Python attributes stay as the session left them. -/
theorem set_value (fl : Fl F) {S : Session F} {o : Obj F P} {n : Name} (hn : n.head? ≠ some '_') {c : Cls F} (hc : o.body.classes.head? = some c) {a : OAttr} (ha : StandsFor c n a) {b : Body F}
    (hr : S.onRead o.body = (.ok (), b)) (x : New F P) {v : Value.Atom F} (hv : Value.convertTo fl a.id.dt x.val = .ok v) :
    ∃ o', set fl S o n x = (S.onUpdate o'.body, o') ∧ HasValue o'.body a (Value.mkLit fl a.id.dt v) ∧ (∀ p l, p ≠ a.id.iri → ((p, l) ∈ o'.body.vals ↔ (p, l) ∈ b.vals)) ∧
      o'.body.classes = b.classes ∧ o'.plain = o.plain ∧ o'.log = o.log ++ [.read, .update] := by
  rw [set_ordinary hn]
  simp only [setOnto, hc, hr, meant_iff.2 ha, hv]
  refine ⟨{ o with body := { b with vals := Value.gset b.vals a.id.iri (Value.mkLit fl a.id.dt v) }, log := o.log ++ [.read] ++ [.update] }, rfl, ?_, ?_, rfl, rfl,
    by simp⟩
  · intro l'
    show _ ∈ Value.gset b.vals a.id.iri (Value.mkLit fl a.id.dt v) ↔ _
    rw [mem_gset]
    constructor
    · rintro (⟨_, h⟩ | h)
      · exact absurd rfl h
      · exact (Prod.mk.inj h).2
    · rintro rfl
      exact .inr rfl
  · intro p l hp
    show _ ∈ Value.gset b.vals a.id.iri (Value.mkLit fl a.id.dt v) ↔ _
    rw [mem_gset]
    constructor
    · rintro (⟨h, _⟩ | h)
      · exact h
      · exact absurd (Prod.mk.inj h).1 hp
    · exact fun h => .inl ⟨h, hp⟩

/-- **C101.** A name without underscore that stands for no attribute cannot be set, `uid`, `session` and the methods included: an AttributeError, and the object is what the session left after the read. A value
the datatype does not accept is refused with the error of the conversion. -/
theorem set_refused (fl : Fl F) {S : Session F} {o : Obj F P} {n : Name} (hn : n.head? ≠ some '_') {c : Cls F} (hc : o.body.classes.head? = some c) {b : Body F}
    (hr : S.onRead o.body = (.ok (), b)) (x : New F P) :
    ((∀ a, ¬ StandsFor c n a) → set fl S o n x = (.error .attributeError, { o with body := b, log := o.log ++ [.read] })) ∧
    (∀ a e, StandsFor c n a → Value.convertTo fl a.id.dt x.val = .error e → set fl S o n x = (.error e, { o with body := b, log := o.log ++ [.read] })) := by
  rw [set_ordinary hn]
  constructor
  · intro h
    simp only [setOnto, hc, hr, meant_none.2 h]
  · intro a e ha he
    simp only [setOnto, hc, hr, meant_iff.2 ha, he]

/-- **C101.** What was set is read, by either spelling: for a value the datatype accepts, and a session that leaves the changed object alone. -/
theorem set_get (fl : Fl F) {S : Session F} {o : Obj F P} (hf : Fine o) {n m : Name} (hn : n.head? ≠ some '_') (hm : Ordinary m) {c : Cls F} (hc : o.body.classes.head? = some c) {a : OAttr}
    (ha : StandsFor c n a) (ha' : StandsFor c m a) {b : Body F} (hr : S.onRead o.body = (.ok (), b)) (hcb : b.classes = o.body.classes) {x : New F P} (hx : Value.Sound x.val) {k : Conv}
    (hk : getPython a.id.dt = .ok k) {o' : Obj F P} (hs : set fl S o n x = (.ok (), o')) (hr' : S.onRead o'.body = (.ok (), o'.body)) :
    ∃ v y, Value.convertTo fl a.id.dt x.val = .ok v ∧ Value.HasType k v ∧ Value.Seen k v y ∧ get S o' m = (.ok (.value y), { o' with log := o'.log ++ [.read] }) := by
  cases hv : Value.convertTo fl a.id.dt x.val with
  | error e =>
    rw [(set_refused fl hn hc hr x).2 a e ha hv] at hs
    injection hs with h _
    cases h
  | ok v =>
    obtain ⟨o1, h1, h2, h3, h4, h5, _⟩ := set_value fl hn hc ha hr x hv
    rw [h1] at hs
    injection hs with hs1 hs2
    subst hs2
    have ht := Value.convert_typed fl hk hx hv
    refine ⟨v, _, rfl, ht, Value.seen fl hk ht, ?_⟩
    exact get_value (fun e he => hf e (h5 ▸ he)) hm (by rw [h4, hcb]; exact hc) ha' hr' h2

/-- **C101.** An object whose class the registry does not know has no attributes: reading and setting an ordinary name is an AttributeError, and the session is not told. -/
theorem no_class (fl : Fl F) (S : Session F) {o : Obj F P} (hf : Fine o) (hc : o.body.classes = []) {n : Name} (hn : Ordinary n) (x : New F P) :
    get S o n = (.error .attributeError, o) ∧ set fl S o n x = (.error .attributeError, o) := by
  rw [get_ordinary hf hn, set_ordinary hn.2.2]
  simp only [getOnto, setOnto, hc, List.head?_nil, fallback, List.any_nil, Bool.false_and, Bool.false_eq_true, if_false, and_self]

/-- **C101.** If the session fails while it is told about the read, setting the attribute fails with its error and changes nothing; reading does too, but an AttributeError of the session is taken for a
missing attribute. -/
theorem refresh_fails (fl : Fl F) {S : Session F} {o : Obj F P} (hf : Fine o) {n : Name} (hn : Ordinary n) {c : Cls F} (hc : o.body.classes.head? = some c) {b : Body F} {e : PyErr}
    (hr : S.onRead o.body = (.error e, b)) (x : New F P) :
    set fl S o n x = (.error e, { o with body := b, log := o.log ++ [.read] }) ∧
    (e ≠ .attributeError → get S o n = (.error e, { o with body := b, log := o.log ++ [.read] })) ∧
    (e = .attributeError → (∃ k ∈ b.classes, k.wrapper = true) → S.has n = true → (get S o n).1 = .ok (.sess n)) := by
  rw [get_ordinary hf hn, set_ordinary hn.2.2]
  refine ⟨by simp only [setOnto, hc, hr], ?_, ?_⟩
  · intro he
    cases e <;> first | exact absurd rfl he | simp only [getOnto, hc, hr]
  · rintro rfl hw hh
    simp only [getOnto, hc, hr, fallback]
    rw [if_pos]
    simp only [Bool.and_eq_true, List.any_eq_true]
    exact ⟨hw, hh⟩

/-! ### Python attributes and members -/

theorem lookup_filter_ne {n m : Name} (h : m ≠ n) : ∀ l : List (Name × P), (l.filter (fun e => e.1 != n)).lookup m = l.lookup m
  | [] => rfl
  | (k, p) :: l => by
    rw [List.filter_cons]
    split
    · rw [List.lookup_cons, List.lookup_cons, lookup_filter_ne h l]
    · rename_i hk
      have : k = n := by simpa using hk
      subst this
      rw [List.lookup_cons, lookup_filter_ne h l, beq_eq_false_iff_ne.2 h]

theorem lookup_filter_self (n : Name) : ∀ l : List (Name × P), (l.filter (fun e => e.1 != n)).lookup n = none := by
  intro l
  rw [List.lookup_eq_none_iff]
  intro e he
  have := (List.mem_filter.1 he).2
  simp only [bne_iff_ne, ne_eq] at this
  simp only [bne_iff_ne, ne_eq]
  exact fun h => this h.symm

/-- **C101.** A name with an underscore never reaches the graph nor the session: it is a Python attribute of this object, read back as it was put there; even if the ontology has an attribute of that
name. -/
theorem private_set (fl : Fl F) (S : Session F) (o : Obj F P) {n : Name} (h : n.head? = some '_') (hp : n ∉ properties) (x : New F P) :
    ∃ o', set fl S o n x = (.ok (), o') ∧ o'.body = o.body ∧ o'.log = o.log ∧ get S o' n = (.ok (.plain x.obj), o') ∧ ∀ m, m ≠ n → o'.plain.lookup m = o.plain.lookup m := by
  unfold set
  rw [if_pos (private_iff.2 h), if_neg hp]
  refine ⟨_, rfl, rfl, rfl, ?_, ?_⟩
  · unfold get
    rw [if_neg hp]
    simp
  · intro m hm
    show List.lookup m ((n, x.obj) :: _) = _
    rw [List.lookup_cons, lookup_filter_ne hm, beq_eq_false_iff_ne.2 hm]

/-- **C101.** An attribute of the ontology cannot be deleted from an object with `del`: nothing in the graph changes, and the session is not told. -/
theorem del_keeps (o : Obj F P) (n : Name) : (del o n).2.body = o.body ∧ (del o n).2.log = o.log ∧ (Fine o → n.head? ≠ some '_' → del o n = (.error .attributeError, o)) := by
  unfold del
  split
  · exact ⟨rfl, rfl, fun _ _ => rfl⟩
  · split
    · exact ⟨rfl, rfl, fun _ _ => rfl⟩
    · rename_i p hl
      refine ⟨rfl, rfl, fun hf hn => ?_⟩
      rw [lookup_fine hf hn] at hl
      cases hl

theorem setOnto_plain (fl : Fl F) (S : Session F) (o : Obj F P) (n : Name) (x : Val F) : (setOnto fl S o n x).2.plain = o.plain := by
  unfold setOnto
  split
  · rfl
  · simp only
    split
    · rfl
    · split
      · rfl
      · split <;> rfl

theorem getOnto_plain (S : Session F) (o : Obj F P) (n : Name) : (getOnto S o n).2.plain = o.plain := by
  have fb : ∀ o1 : Obj F P, (fallback S o1 n).2 = o1 := by
    intro o1
    unfold fallback
    split <;> rfl
  unfold getOnto
  split
  · rw [fb]
  · simp only
    split
    · rw [fb]
    · rfl
    · split
      · rw [fb]
      · split
        · rw [fb]
        · rfl

theorem get_plain (S : Session F) (o : Obj F P) (n : Name) : (get S o n).2.plain = o.plain := by
  unfold get
  split
  · rfl
  · split
    · rfl
    · split
      · rfl
      · exact getOnto_plain S o n

theorem step_fine (fl : Fl F) (S : Session F) {o : Obj F P} (h : Fine o) (op : Op F P) : Fine (step fl S o op) := by
  cases op with
  | get n => intro e he; exact h e (by rw [← get_plain S o n]; exact he)
  | set n x =>
    show Fine (set fl S o n x).2
    unfold set
    split
    · rename_i hp
      split
      · exact h
      · rename_i hq
        intro e he
        rcases List.mem_cons.1 he with rfl | he
        · exact ⟨private_iff.1 hp, hq⟩
        · exact h e (List.mem_filter.1 he).1
    · intro e he
      exact h e (by rw [← setOnto_plain fl S o n x.val]; exact he)
  | del n =>
    show Fine (del o n).2
    unfold del
    split
    · exact h
    · split
      · exact h
      · intro e he
        exact h e (List.mem_filter.1 he).1

theorem run_fine (fl : Fl F) (S : Session F) : ∀ (ops : List (Op F P)) {o : Obj F P}, Fine o → Fine (run fl S o ops)
  | [], _, h => h
  | op :: ops, _, h => run_fine fl S ops (step_fine fl S h op)

/-- **C101.** Whatever is done to an object by name, `uid`, `iri`, `session`, `oclass` and the other properties are read as themselves afterwards, and so are the methods whose names have no underscore.
So an attribute of the ontology with such a name can never be read by name. -/
theorem members_kept (fl : Fl F) (S : Session F) {o : Obj F P} (hf : Fine o) (ops : List (Op F P)) {n : Name} (h : n ∈ properties ∨ (n ∈ methods ∧ n.head? ≠ some '_')) :
    get S (run fl S o ops) n = (.ok (.member n), run fl S o ops) := by
  unfold get
  by_cases hp : n ∈ properties
  · rw [if_pos hp]
  · rw [if_neg hp]
    rcases h with h | ⟨h, h'⟩
    · exact absurd h hp
    · rw [lookup_fine (run_fine fl S ops hf) h']
      simp only
      rw [if_pos h]

/-! ### histories in a session that neither refreshes nor refuses -/

theorem getOnto_quiet {S : Session F} (hq : Quiet S) (o : Obj F P) (n : Name) : (getOnto S o n).2.body = o.body := by
  have fb : ∀ o1 : Obj F P, (fallback S o1 n).2 = o1 := by
    intro o1
    unfold fallback
    split <;> rfl
  unfold getOnto
  split
  · rw [fb]
  · simp only [(hq _).1]
    split
    · rw [fb]
    · split
      · rw [fb]
      · rfl

theorem get_quiet {S : Session F} (hq : Quiet S) (o : Obj F P) (n : Name) : (get S o n).2.body = o.body := by
  unfold get
  split
  · rfl
  · split
    · rfl
    · split
      · rfl
      · exact getOnto_quiet hq o n

theorem step_classes (fl : Fl F) {S : Session F} (hq : Quiet S) (o : Obj F P) (op : Op F P) : (step fl S o op).body.classes = o.body.classes := by
  cases op with
  | get n => show (get S o n).2.body.classes = _; rw [get_quiet hq]
  | del n => show (del o n).2.body.classes = _; rw [(del_keeps o n).1]
  | set n x =>
    show (set fl S o n x).2.body.classes = _
    unfold set
    split
    · split <;> rfl
    · unfold setOnto
      split
      · rfl
      · simp only [(hq _).1]
        split
        · rfl
        · split <;> rfl

/-- A step leaves the values of an attribute it does not change. -/
theorem step_keeps (fl : Fl F) {S : Session F} (hq : Quiet S) (o : Obj F P) (op : Op F P) {c : Cls F} (hc : o.body.classes.head? = some c) {a : OAttr} (h : ¬ Changes fl c a op) (l : Lit F) :
    (a.id.iri, l) ∈ (step fl S o op).body.vals ↔ (a.id.iri, l) ∈ o.body.vals := by
  cases op with
  | get n => show _ ∈ (get S o n).2.body.vals ↔ _; rw [get_quiet hq]
  | del n => show _ ∈ (del o n).2.body.vals ↔ _; rw [(del_keeps o n).1]
  | set n x =>
    show _ ∈ (set fl S o n x).2.body.vals ↔ _
    by_cases hn : n.head? = some '_'
    · unfold set
      rw [if_pos (private_iff.2 hn)]
      split <;> exact Iff.rfl
    · cases hm : meant c n with
      | none => rw [(set_refused fl hn hc (hq o.body).1 x).1 (meant_none.1 hm)]
      | some b =>
        have hb := meant_iff.1 hm
        cases hv : Value.convertTo fl b.id.dt x.val with
        | error e => rw [(set_refused fl hn hc (hq o.body).1 x).2 b e hb hv]
        | ok v =>
          obtain ⟨o', h1, _, h3, _⟩ := set_value fl hn hc hb (hq o.body).1 x hv
          rw [h1]
          refine h3 _ _ (fun e => h ⟨hn, b, v, hb, e.symm, hv⟩)

theorem run_keeps (fl : Fl F) {S : Session F} (hq : Quiet S) {c : Cls F} {a : OAttr} (l : Lit F) : ∀ (ops : List (Op F P)) (o : Obj F P), o.body.classes.head? = some c →
    (∀ op ∈ ops, ¬ Changes fl c a op) → (run fl S o ops).body.classes.head? = some c ∧ ((a.id.iri, l) ∈ (run fl S o ops).body.vals ↔ (a.id.iri, l) ∈ o.body.vals)
  | [], _, hc, _ => ⟨hc, Iff.rfl⟩
  | op :: ops, o, hc, h => by
    have hc' : (step fl S o op).body.classes.head? = some c := by rw [step_classes fl hq]; exact hc
    obtain ⟨i1, i2⟩ := run_keeps fl hq l ops (step fl S o op) hc' (fun p m => h p (List.mem_cons_of_mem _ m))
    exact ⟨i1, i2.trans (step_keeps fl hq o op hc (h op (List.mem_cons_self ..)) l)⟩

theorem run_classes (fl : Fl F) {S : Session F} (hq : Quiet S) : ∀ (ops : List (Op F P)) (o : Obj F P), (run fl S o ops).body.classes = o.body.classes
  | [], _ => rfl
  | op :: ops, o => by
    show (run fl S (step fl S o op) ops).body.classes = _
    rw [run_classes fl hq ops, step_classes fl hq]

/-- **C101.** The last assignment that changed an attribute is what is read, whatever else is done to the object by any name before and after. -/
theorem last_write (fl : Fl F) {S : Session F} (hq : Quiet S) {o : Obj F P} (hf : Fine o) {c : Cls F} (hc : o.body.classes.head? = some c) {a : OAttr} (pre post : List (Op F P)) {n : Name} {x : New F P}
    (hn : n.head? ≠ some '_') (ha : StandsFor c n a) {v : Value.Atom F} (hv : Value.convertTo fl a.id.dt x.val = .ok v) (hp : ∀ op ∈ post, ¬ Changes fl c a op) {m : Name} (hm : Ordinary m)
    (ha' : StandsFor c m a) : (get S (run fl S o (pre ++ .set n x :: post)) m).1 = .ok (.value (Value.toPython (Value.mkLit fl a.id.dt v))) := by
  have hc1 : (run fl S o pre).body.classes.head? = some c := by rw [run_classes fl hq]; exact hc
  obtain ⟨o2, h1, h2, _, h4, _⟩ := set_value fl hn hc1 ha (hq _).1 x hv
  have e : run fl S o (pre ++ .set n x :: post) = run fl S o2 post := by
    unfold run
    rw [List.foldl_append, List.foldl_cons]
    show List.foldl _ (set fl S (run fl S o pre) n x).2 post = _
    rw [h1]
  have hc2 : o2.body.classes.head? = some c := by rw [h4]; exact hc1
  have hl : HasValue (run fl S o2 post).body a (Value.mkLit fl a.id.dt v) := fun l' => (run_keeps fl hq l' post o2 hc2 hp).2.trans (h2 l')
  have hc3 : (run fl S o2 post).body.classes.head? = some c := by rw [run_classes fl hq]; exact hc2
  rw [e, get_value (e ▸ run_fine fl S _ hf) hm hc3 ha' (hq _).1 hl]

/-- **C101.** What no assignment changed is read as before. -/
theorem untouched (fl : Fl F) {S : Session F} (hq : Quiet S) {o : Obj F P} (hf : Fine o) {c : Cls F} (hc : o.body.classes.head? = some c) {a : OAttr} (ops : List (Op F P))
    (hp : ∀ op ∈ ops, ¬ Changes fl c a op) {m : Name} (hm : Ordinary m) (ha : StandsFor c m a) {l : Lit F} (hl : HasValue o.body a l) :
    (get S (run fl S o ops) m).1 = .ok (.value (Value.toPython l)) := by
  have hc3 : (run fl S o ops).body.classes.head? = some c := by rw [run_classes fl hq]; exact hc
  rw [get_value (run_fine fl S _ hf) hm hc3 ha (hq _).1 (fun l' => (run_keeps fl hq l' ops o hc hp).2.trans (hl l'))]

/-! ### the constructor -/

theorem noClash {c : Cls F} (h : Distinct c) : c.attrs.Pairwise (fun x y => Onto.NoClash x.1 y.1) := by
  refine h.imp ?_
  intro x y hxy
  refine ⟨fun e => hxy.1 _ ⟨.inl rfl, .inl e⟩, fun e => hxy.1 _ ⟨.inr rfl, .inl e⟩, fun e => hxy.1 _ ⟨.inl rfl, .inr e⟩, fun e => hxy.1 _ ⟨.inr rfl, .inr e⟩⟩

theorem values_of_call {c : Cls F} (hd : Distinct c) {force : Bool} {kw : Kwargs (Val F)} {vs : List (OAttr × Val F)} (h : Onto.attributesValues force c.attrs kw = .ok vs) :
    ∀ a x, (a, x) ∈ vs ↔ ∃ i, (a, i) ∈ c.attrs ∧ Argument kw a i = some x := by
  have e : vs = c.attrs.filterMap (fun x => (Onto.expected kw x.1 x.2).map (fun v => (x.1, v))) := by
    cases force with
    | true =>
      rw [Onto.constructor_arguments_force _ (noClash hd)] at h
      exact (Except.ok.inj h).symm
    | false =>
      obtain ⟨h1, h2⟩ := Onto.constructor_arguments_exact c.attrs (noClash hd) kw
      by_cases hb : (∃ x ∈ c.attrs, x.2.obligatory = true ∧ ¬ Onto.Given kw x.1) ∨ (∃ e ∈ kw, ∀ x ∈ c.attrs, ¬ Onto.UsedFor kw x.1 e.1)
      · rw [h1 hb] at h
        cases h
      · rw [h2 hb] at h
        exact (Except.ok.inj h).symm
  intro a x
  rw [e, List.mem_filterMap]
  constructor
  · rintro ⟨⟨a', i⟩, hm, ho⟩
    obtain ⟨v, hv, he⟩ := Option.map_eq_some_iff.1 ho
    injection he with h1 h2
    subst h1 h2
    exact ⟨i, hm, hv⟩
  · rintro ⟨i, hm, ha⟩
    exact ⟨(a, i), hm, by rw [show Onto.expected kw a i = some x from ha]; rfl⟩

theorem distinct_iri {c : Cls F} (hd : Distinct c) {a b : OAttr} {i j : AttrInfo (Val F)} (ha : (a, i) ∈ c.attrs) (hb : (b, j) ∈ c.attrs) (e : a.id.iri = b.id.iri) : a = b ∧ i = j := by
  have key : ∀ l : List (OAttr × AttrInfo (Val F)), l.Pairwise (fun x y => (∀ n, ¬ (Spells n x.1 ∧ Spells n y.1)) ∧ x.1.id.iri ≠ y.1.id.iri) → (a, i) ∈ l → (b, j) ∈ l → a = b ∧ i = j := by
    intro l
    induction l with
    | nil => intro _ ha; cases ha
    | cons x l ih =>
      intro hd ha hb
      rw [List.pairwise_cons] at hd
      rcases List.mem_cons.1 ha with h1 | h1
      · rcases List.mem_cons.1 hb with h2 | h2
        · have := h1.trans h2.symm
          exact ⟨(Prod.mk.inj this).1, (Prod.mk.inj this).2⟩
        · subst h1
          exact absurd e (hd.1 _ h2).2
      · rcases List.mem_cons.1 hb with h2 | h2
        · subst h2
          exact absurd e.symm (hd.1 _ h1).2
        · exact ih hd.2 h1 h2
  exact key c.attrs hd ha hb

theorem call_ok (fl : Fl F) {c : Cls F} {sess force : Bool} {kw : Kwargs (Val F)} {b : Body F} (h : call fl c sess force kw = .ok b) :
    (∀ e ∈ kw, e.1 ≠ "self".toList) ∧ (c.wrapper = true → sess = true) ∧ c.nothing = false ∧ b.classes = [c] ∧
    ∃ vs, Onto.attributesValues force c.attrs (kw.filter (fun e => !(parameters.contains e.1))) = .ok vs ∧ Value.initAttrs fl (vs.map (fun x => (x.1.id, x.2))) = .ok b.vals := by
  unfold call at h
  split at h
  · cases h
  · rename_i h1
    split at h
    · cases h
    · rename_i h2
      split at h
      · cases h
      · rename_i h3
        split at h
        · cases h
        · rename_i vs hvs
          split at h
          · cases h
          · rename_i g hg
            cases h
            refine ⟨?_, ?_, by simpa using h3, rfl, vs, hvs, hg⟩
            · intro e he hs
              exact h1 (List.any_eq_true.2 ⟨e, he, by simpa using hs⟩)
            · intro hw
              cases sess with
              | true => rfl
              | false => exact absurd (by rw [hw]; rfl) h2

theorem lookup_params {kw : Kwargs (Val F)} {n : Name} (h : n ∉ parameters) : (kw.filter (fun e => !(parameters.contains e.1))).lookup n = kw.lookup n := by
  induction kw with
  | nil => rfl
  | cons e kw ih =>
    obtain ⟨k, v⟩ := e
    rw [List.filter_cons]
    split
    · rw [List.lookup_cons, List.lookup_cons, ih]
    · rename_i hk
      rw [ih, List.lookup_cons]
      have hkp : k ∈ parameters := by simpa using hk
      have : (n == k) = false := by
        rw [beq_eq_false_iff_ne]
        rintro rfl
        exact h hkp
      rw [this]

theorem lookup_params_none {kw : Kwargs (Val F)} {n : Name} (h : n ∈ parameters) : (kw.filter (fun e => !(parameters.contains e.1))).lookup n = none := by
  rw [List.lookup_eq_none_iff]
  intro e he
  have := (List.mem_filter.1 he).2
  simp only [Bool.not_eq_eq_eq_not, Bool.not_true] at this
  simp only [bne_iff_ne, ne_eq]
  rintro rfl
  rw [List.contains_iff_mem.2 h] at this
  cases this

/-- **C101.** What the constructor was given is read, by either spelling: the keyword of that name, else the one in lower case, else the default, converted to the datatype of the attribute; and an attribute
without any of these is an AttributeError (in an object that is no wrapper). -/
theorem new_get (fl : Fl F) {c : Cls F} (hd : Distinct c) {sess force : Bool} {kw : Kwargs (Val F)} {b : Body F} (h : call fl c sess force kw = .ok b) {a : OAttr} {i : AttrInfo (Val F)}
    (ha : (a, i) ∈ c.attrs) (hp : a.argname ∉ parameters ∧ a.argname.map Char.toLower ∉ parameters) {n : Name} (hs : Spells n a) (hn : Ordinary n) (S : Session F) (hq : Quiet S) (o : Obj F P) (hf : Fine o)
    (hb : o.body = b) :
    (∀ x, Argument kw a i = some x → ∃ v, Value.convertTo fl a.id.dt x = .ok v ∧ (get S o n).1 = .ok (.value (Value.toPython (Value.mkLit fl a.id.dt v)))) ∧
    (Argument kw a i = none → c.wrapper = false → (get S o n).1 = .error .attributeError) := by
  obtain ⟨_, _, _, hcl, vs, hvs, hg⟩ := call_ok fl h
  have hc : o.body.classes.head? = some c := by rw [hb, hcl]; rfl
  have hst := (both_spellings hd ha n).2 hs
  have hval := values_of_call hd hvs
  have harg : ∀ j, Argument (kw.filter (fun e => !(parameters.contains e.1))) a j = Argument kw a j := by
    intro j
    unfold Argument
    rw [lookup_params hp.1, lookup_params hp.2]
  have hobj := Value.new_object fl hg
  constructor
  · intro x hx
    have hm : (a, x) ∈ vs := (hval a x).2 ⟨i, ha, by rw [harg]; exact hx⟩
    obtain ⟨v, hv⟩ := (Value.new_object_iff fl _).1 ⟨_, hg⟩ a.id x (List.mem_map.2 ⟨(a, x), hm, rfl⟩)
    refine ⟨v, hv, ?_⟩
    have hl : HasValue o.body a (Value.mkLit fl a.id.dt v) := by
      intro l'
      rw [hb, hobj]
      constructor
      · rintro ⟨a1, x1, v1, m1, e1, c1, rfl⟩
        obtain ⟨⟨a2, x2⟩, m2, e2⟩ := List.mem_map.1 m1
        injection e2 with e3 e4
        subst e3 e4
        obtain ⟨j, mj, aj⟩ := (hval a2 x2).1 m2
        obtain ⟨rfl, rfl⟩ := distinct_iri hd mj ha e1
        rw [harg, hx] at aj
        cases aj
        rw [hv] at c1
        cases c1
        rfl
      · rintro rfl
        exact ⟨a.id, x, v, List.mem_map.2 ⟨(a, x), hm, rfl⟩, rfl, hv, rfl⟩
    rw [get_value hf hn hc hst (hq _).1 hl]
  · intro hx hw
    have hnone : ∀ a', StandsFor c n a' → NoValue o.body a' := by
      intro a' ha' l hl
      obtain rfl := standsFor_unique ha' hst
      rw [hb, hobj] at hl
      obtain ⟨a1, x1, v1, m1, e1, _, _⟩ := hl
      obtain ⟨⟨a2, x2⟩, m2, e2⟩ := List.mem_map.1 m1
      injection e2 with e3 e4
      subst e3 e4
      obtain ⟨j, mj, aj⟩ := (hval a2 x2).1 m2
      obtain ⟨rfl, rfl⟩ := distinct_iri hd mj ha e1
      rw [harg, hx] at aj
      cases aj
    rw [(get_missing hf hn hc (hq _).1 hnone).2]
    rintro ⟨⟨k, hk, hkw⟩, _⟩
    rw [hb, hcl, List.mem_singleton] at hk
    subst hk
    rw [hw] at hkw
    cases hkw

theorem keywords_eq (kw : Kwargs (Val F)) : kw.filter (fun e => !(parameters.contains e.1)) = Keywords kw := by
  unfold Keywords
  refine List.filter_congr (fun e _ => ?_)
  rw [Bool.eq_iff_iff]
  simp only [Bool.not_eq_eq_eq_not, Bool.not_true, decide_eq_true_eq]
  rw [← Bool.not_eq_true, List.contains_iff_mem]
  rfl

theorem lookup_isSome {kw : Kwargs (Val F)} {n : Name} : (kw.lookup n).isSome = true ↔ ∃ e ∈ kw, e.1 = n := by
  cases h : kw.lookup n with
  | none =>
    rw [List.lookup_eq_none_iff] at h
    refine ⟨fun h => (nomatch h), ?_⟩
    rintro ⟨e, he, rfl⟩
    have := h e he
    simp at this
  | some v =>
    obtain ⟨l1, l2, e, _⟩ := List.lookup_eq_some_iff.1 h
    exact ⟨fun _ => ⟨(n, v), by rw [e]; simp, rfl⟩, fun _ => rfl⟩

theorem given_iff {kw : Kwargs (Val F)} {a : OAttr} : Onto.Given kw a ↔ ∃ e ∈ kw, Spells e.1 a := by
  unfold Onto.Given Spells
  rw [lookup_isSome, lookup_isSome]
  constructor
  · rintro (⟨e, he, h⟩ | ⟨e, he, h⟩)
    · exact ⟨e, he, .inl h⟩
    · exact ⟨e, he, .inr h⟩
  · rintro ⟨e, he, h | h⟩
    · exact .inl ⟨e, he, h⟩
    · exact .inr ⟨e, he, h⟩

theorem taken_iff {kw : Kwargs (Val F)} {a : OAttr} {k : Name} : Onto.UsedFor kw a k ↔ Taken kw k a := by
  unfold Onto.UsedFor Taken
  have : kw.lookup a.argname = none ↔ ∀ e ∈ kw, e.1 ≠ a.argname := by
    rw [← Option.not_isSome_iff_eq_none, lookup_isSome]
    constructor
    · exact fun h e he hn => h ⟨e, he, hn⟩
    · rintro h ⟨e, he, hn⟩
      exact h e he hn
  rw [this]
  rfl

/-- **C101.** When an object can be made: never with a keyword `self`; a wrapper needs a session; never of cuba.Nothing; without `_force` each obligatory attribute needs a keyword that spells it, and each
keyword must be taken by an attribute; and each value given or by default must be accepted by the datatype of its attribute. -/
theorem new_iff (fl : Fl F) {c : Cls F} (hd : Distinct c) (sess force : Bool) (kw : Kwargs (Val F)) : (∃ b, call fl c sess force kw = .ok b) ↔
    (∀ e ∈ kw, e.1 ≠ "self".toList) ∧ (c.wrapper = true → sess = true) ∧ c.nothing = false ∧
    (force = false → (∀ x ∈ c.attrs, x.2.obligatory = true → ∃ e ∈ Keywords kw, Spells e.1 x.1) ∧ ∀ e ∈ Keywords kw, ∃ x ∈ c.attrs, Taken (Keywords kw) e.1 x.1) ∧
    ∀ x ∈ c.attrs, ∀ y, Argument (Keywords kw) x.1 x.2 = some y → ∃ v, Value.convertTo fl x.1.id.dt y = .ok v := by
  constructor
  · rintro ⟨b, h⟩
    obtain ⟨h1, h2, h3, _, vs, hvs, hg⟩ := call_ok fl h
    rw [keywords_eq] at hvs
    refine ⟨h1, h2, h3, ?_, ?_⟩
    · rintro rfl
      have hx := (Onto.constructor_arguments_exact c.attrs (noClash hd) (Keywords kw)).1
      refine ⟨fun x hm ho => ?_, fun e he => ?_⟩
      · by_cases hgv : Onto.Given (Keywords kw) x.1
        · exact given_iff.1 hgv
        · rw [hx (.inl ⟨x, hm, ho, hgv⟩)] at hvs
          cases hvs
      · by_cases hu : ∃ x ∈ c.attrs, Onto.UsedFor (Keywords kw) x.1 e.1
        · obtain ⟨x, hm, hu⟩ := hu
          exact ⟨x, hm, taken_iff.1 hu⟩
        · rw [hx (.inr ⟨e, he, fun x hm h => hu ⟨x, hm, h⟩⟩)] at hvs
          cases hvs
    · rintro ⟨a, i⟩ hm y hy
      exact (Value.new_object_iff fl _).1 ⟨_, hg⟩ a.id y (List.mem_map.2 ⟨(a, y), (values_of_call hd hvs a y).2 ⟨i, hm, hy⟩, rfl⟩)
  · rintro ⟨h1, h2, h3, h4, h5⟩
    have hvs : ∃ vs, Onto.attributesValues force c.attrs (Keywords kw) = .ok vs := by
      cases force with
      | true => exact ⟨_, Onto.constructor_arguments_force _ (noClash hd) _⟩
      | false =>
        obtain ⟨h6, h7⟩ := h4 rfl
        refine ⟨_, (Onto.constructor_arguments_exact c.attrs (noClash hd) (Keywords kw)).2 ?_⟩
        rintro (⟨x, hm, ho, hg⟩ | ⟨e, he, hu⟩)
        · exact hg (given_iff.2 (h6 x hm ho))
        · obtain ⟨x, hm, ht⟩ := h7 e he
          exact hu x hm (taken_iff.2 ht)
    obtain ⟨vs, hvs⟩ := hvs
    have hg := (Value.new_object_iff fl (vs.map (fun x => (x.1.id, x.2)))).2 (by
      intro a x hm
      obtain ⟨⟨a', x'⟩, hm', e⟩ := List.mem_map.1 hm
      injection e with e1 e2
      subst e1 e2
      obtain ⟨i, hi, ha⟩ := (values_of_call hd hvs a' x').1 hm'
      exact h5 _ hi _ ha)
    obtain ⟨g, hg⟩ := hg
    refine ⟨⟨[c], g⟩, ?_⟩
    unfold call
    rw [if_neg, if_neg, if_neg (by rw [h3]; decide), keywords_eq, hvs]
    · simp only [hg]
    · cases hw : c.wrapper with
      | false => simp
      | true => rw [h2 hw]; simp
    · intro h
      obtain ⟨e, he, hs⟩ := List.any_eq_true.1 h
      exact h1 e he (by simpa using hs)

/-- **C101.** An attribute called `uid` or `session` cannot be given to the constructor: the keyword is taken for the parameter. If the attribute is obligatory, the class cannot be instantiated without
`_force`; no class can be given a keyword `self`. -/
theorem parameters_taken (fl : Fl F) {c : Cls F} (hd : Distinct c) (sess : Bool) (kw : Kwargs (Val F)) :
    (∀ a i, (a, i) ∈ c.attrs → a.argname ∈ parameters → i.obligatory = true → a.argname.map Char.toLower ∈ parameters → ∃ e, call fl c sess false kw = .error e) ∧
    (∀ x force, ("self".toList, x) ∈ kw → call fl c sess force kw = .error .typeError) := by
  constructor
  · intro a i ha hp ho hp'
    cases h : call fl c sess false kw with
    | error e => exact ⟨e, rfl⟩
    | ok b =>
      obtain ⟨_, _, _, _, vs, hvs, _⟩ := call_ok fl h
      rw [(Onto.constructor_arguments_exact c.attrs (noClash hd) _).1 (.inl ⟨(a, i), ha, ho, ?_⟩)] at hvs
      · cases hvs
      · unfold Onto.Given
        rw [lookup_params_none hp, show a.argname.lower = a.argname.map Char.toLower from rfl, lookup_params_none hp']
        simp
  · intro x force hx
    unfold call
    rw [if_pos (List.any_eq_true.2 ⟨_, hx, by simp⟩)]

end Osp.Access
