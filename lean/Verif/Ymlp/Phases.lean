import Verif.Ymlp.Load
/-!
# The three loops
-/
namespace Osp.Ymlp
open Osp.Yaml (Yaml)
open Osp.Names (lower)

/-! ### the first loop -/

theorem kind_filter (p : Kind → Bool) (k : Kind) : [Kind.class_, .relationship, .attribute].filter p = [k] ↔ ∀ k', p k' = true ↔ k' = k := by
  constructor
  · intro h k'
    have hm : k' ∈ [Kind.class_, .relationship, .attribute].filter p ↔ k' ∈ [k] := by rw [h]
    rw [List.mem_filter, List.mem_singleton] at hm
    rw [← hm]
    exact ⟨fun h => ⟨by cases k' <;> simp, h⟩, fun h => h.2⟩
  · intro h
    have h1 := h .class_
    have h2 := h .relationship
    have h3 := h .attribute
    cases k <;> simp at h1 h2 h3 <;> simp [h1, h2, h3]

theorem owl_kind (k : Kind) : k.owl ∈ kindTypes := by cases k <;> decide

/-- Valid as an entity of that kind. -/
def Valid (E : Env) (e : Entity) (k : Kind) : Prop := Yaml.validate (Yaml.formats E.dig) E.limit e.raw (.named k.format) = .ok ()

theorem validateEntity_iff {E : Env} {D : Doc} {g h : Gr} (hD : Proper D) (hg : Ready D g) (hx : Ext D g h) {e : Entity} (he : e ∈ D.entities)
    (hty : ∀ k ∈ kindTypes, hasType h (iriOf D g e) k = true ↔ Inherits D g e k) (k : Kind) : validateEntity E D h e = .ok k ↔ IsKind D g e k ∧ Valid E e k := by
  unfold validateEntity
  rw [(getIri_entity hD hg hx he).1]
  change (match [Kind.class_, .relationship, .attribute].filter (fun k => hasType h (iriOf D g e) k.owl) with
    | [k] => (match Yaml.validate (Yaml.formats E.dig) E.limit e.raw (.named k.format) with | .ok () => .ok k | .error x => raise x)
    | _ => raise .runtimeError : Run Kind) = .ok k ↔ _
  have hf : ∀ k, [Kind.class_, .relationship, .attribute].filter (fun k => hasType h (iriOf D g e) k.owl) = [k] ↔ IsKind D g e k := by
    intro k
    rw [kind_filter]
    unfold IsKind
    constructor
    · intro h k'; rw [← hty _ (owl_kind k')]; exact h k'
    · intro h k'; rw [hty _ (owl_kind k')]; exact h k'
  constructor
  · intro h1
    split at h1
    · rename_i k0 hk0
      split at h1
      · rename_i hv
        cases h1
        exact ⟨(hf _).1 hk0, hv⟩
      · cases h1
    · cases h1
  · rintro ⟨h1, h2⟩
    rw [(hf k).2 h1]
    simp only
    rw [h2]

theorem loadAll_ok {E : Env} {D : Doc} {g : Gr} (hD : Proper D) (hg : Ready D g) {fuel : Nat} {es : List Entity} (hes : ∀ e ∈ es, e ∈ D.entities) {h h' : Gr} {ks : List Kind} (ht : Tame D g h)
    (hw : loadAll E D fuel es h = .ok (h', ks)) :
    Adds h h' (fun t => ∃ e ∈ es, LoadSays D g e t) ∧ Tame D g h' ∧ (∀ p ∈ es.zip ks, IsKind D g p.1 p.2 ∧ Valid E p.1 p.2) ∧ (es.zip ks).map (·.1) = es ∧ ∀ e ∈ es, Loadable D g e := by
  induction es generalizing h ks with
  | nil =>
    cases hw
    exact ⟨Adds.none (fun t => by rintro ⟨e, he, _⟩; cases he), ht, fun p hp => (by cases hp), rfl, fun e he => (by cases he)⟩
  | cons e es ih =>
    have he := hes e List.mem_cons_self
    rw [loadAll, bind_ok] at hw
    obtain ⟨h1, hw1, hw⟩ := hw
    rw [bind_ok] at hw
    obtain ⟨k, hk, hw⟩ := hw
    rw [bind_ok] at hw
    obtain ⟨⟨h2, ks'⟩, hw2, hw⟩ := hw
    cases hw
    obtain ⟨a1, t1, ty1, l1⟩ := loadEntity_ok hD hg ht he hw1
    obtain ⟨a2, t2, k2, z2, l2⟩ := ih (fun x hx => hes x (List.mem_cons_of_mem _ hx)) t1 hw2
    refine ⟨(a1.trans a2).congr (fun t => ?_), t2, ?_, ?_, ?_⟩
    · constructor
      · rintro (h | ⟨x, hx, h⟩)
        · exact ⟨e, List.mem_cons_self, h⟩
        · exact ⟨x, List.mem_cons_of_mem _ hx, h⟩
      · rintro ⟨x, hx, h⟩
        rcases List.mem_cons.1 hx with rfl | hx
        · exact Or.inl h
        · exact Or.inr ⟨x, hx, h⟩
    · intro p hp
      rw [List.zip_cons_cons] at hp
      rcases List.mem_cons.1 hp with rfl | hp
      · exact (validateEntity_iff hD hg t1.ext he ty1 k).1 hk
      · exact k2 p hp
    · rw [List.zip_cons_cons, List.map_cons, z2]
    · intro x hx
      rcases List.mem_cons.1 hx with rfl | hx
      · exact l1
      · exact l2 x hx

theorem loadAll_total {E : Env} {D : Doc} {g : Gr} (hD : Proper D) (hg : Ready D g) {es : List Entity} (hes : ∀ e ∈ es, e ∈ D.entities)
    (hl : ∀ e ∈ es, Loadable D g e ∧ ∃ k, IsKind D g e k ∧ Valid E e k) : ∃ n, ∀ m h, Tame D g h → ∃ r, loadAll E D (n + m) es h = .ok r := by
  induction es with
  | nil => exact ⟨0, fun m h _ => ⟨(h, []), rfl⟩⟩
  | cons e es ih =>
    have he := hes e List.mem_cons_self
    obtain ⟨l1, k, k1⟩ := hl e List.mem_cons_self
    obtain ⟨n1, h1⟩ := loadEntity_total hD hg he l1
    obtain ⟨n2, h2⟩ := ih (fun x hx => hes x (List.mem_cons_of_mem _ hx)) (fun x hx => hl x (List.mem_cons_of_mem _ hx))
    refine ⟨n1 + n2, fun m h ht => ?_⟩
    obtain ⟨h', e1⟩ := h1 (n2 + m) h ht
    obtain ⟨_, t1, ty1, _⟩ := loadEntity_ok hD hg ht he e1
    obtain ⟨⟨r, ks⟩, e2⟩ := h2 (n1 + m) h' t1
    refine ⟨(r, k :: ks), ?_⟩
    rw [loadAll, Nat.add_assoc, e1]
    change (validateEntity E D h' e >>= _) = _
    rw [(validateEntity_iff hD hg t1.ext he ty1 k).2 k1]
    change (loadAll E D (n1 + (n2 + m)) es h' >>= _) = _
    rw [show n1 + (n2 + m) = n2 + (n1 + m) from by omega, e2]
    rfl

/-! ### the default relationship of the document -/

theorem getIri_lower {D : Doc} {g : Gr} (a b : Text) : getIri D g (lower a) b = getIri D g a b := by
  unfold getIri
  cases a with
  | nil => rfl
  | cons c a =>
    have : lower (if (lower (c :: a)).isEmpty = true then D.own else lower (c :: a)) = lower (if (c :: a).isEmpty = true then D.own else c :: a) := by
      rw [if_neg (by simp [lower]), if_neg (by simp), lower_lower]
    simp only [this]

theorem refers_eq {D : Doc} {g : Gr} {a b : Text} (ha : '.' ∉ a) (hb : '.' ∉ b) : refers D g (a ++ '.' :: b) = getIri D g a b := by
  unfold refers
  rw [(splitName_iff _ _ _).2 ⟨a, rfl, ha, hb, rfl⟩]
  exact getIri_lower a b

/-- The triple for the default relationship of the document. -/
def DefaultSays (D : Doc) (g : Gr) (t : Triple) : Prop := ∃ r i, D.defaultRel = some r ∧ refers D g r = .ok i ∧ t = ⟨.iri (base D g), .defaultRel, .iri i⟩

/-- What is needed for it. -/
def DefaultOk (E : Env) (D : Doc) (g : Gr) : Prop :=
  ∀ r, D.defaultRel = some r → (∃ i, refers D g r = .ok i) ∧ ∃ a b has, r = a ++ '.' :: b ∧ '.' ∉ a ∧ '.' ∉ b ∧ E.reg a = some has ∧ has b = true

theorem new_base {D : Doc} {g : Gr} {p : Pred} (hp : p ≠ .referenceByLabel) (o : Node) : New D g ⟨.iri (base D g), p, o⟩ :=
  ⟨hp, Or.inl ⟨[], plain_nil, by rw [List.append_nil]⟩⟩

theorem defaultRelOfDoc_ok {E : Env} {D : Doc} {g h h' : Gr} (hD : Proper D) (hg : Ready D g) (ht : Tame D g h) (hw : defaultRelOfDoc E D h = .ok h') :
    Adds h h' (DefaultSays D g) ∧ Tame D g h' ∧ DefaultOk E D g := by
  have key : Adds h h' (DefaultSays D g) ∧ DefaultOk E D g := by
    unfold defaultRelOfDoc at hw
    unfold DefaultSays DefaultOk
    cases hd : D.defaultRel with
    | none =>
      rw [hd] at hw
      cases hw
      exact ⟨Adds.none (fun t => by rintro ⟨r, i, h, _⟩; cases h), fun r h => by cases h⟩
    | some r =>
      rw [hd] at hw
      simp only at hw
      split at hw
      · rename_i a b hs
        obtain ⟨rfl, ha, hb⟩ := splitOn_two.1 hs
        split at hw
        · cases hw
        · rename_i has hreg
          split at hw
          · rename_i hhas
            rw [bind_ok] at hw
            obtain ⟨i, hi, hw⟩ := hw
            rw [getIri_own ht.ext] at hw
            rw [← refers_eq ha hb, refers_ext hD hg ht.ext (InDoc.default hd)] at hi
            cases hw
            refine ⟨(Adds.one _ _).congr (fun t => ⟨fun h => ⟨_, i, rfl, hi, h⟩, ?_⟩), ?_⟩
            · rintro ⟨r, j, hr, hj, rfl⟩
              cases hr
              rw [hi] at hj; cases hj; rfl
            · intro r hr
              cases hr
              exact ⟨⟨i, hi⟩, a, b, has, rfl, ha, hb, hreg, hhas⟩
          · cases hw
      · cases hw
  refine ⟨key.1, ht.adds key.1 ?_ ?_, key.2⟩
  · rintro t ⟨r, i, _, _, rfl⟩; exact new_base (by simp) _
  · rintro i k _ ⟨r, j, _, _, h⟩; cases h

theorem defaultRelOfDoc_total {E : Env} {D : Doc} {g h : Gr} (hD : Proper D) (hg : Ready D g) (ht : Tame D g h) (hok : DefaultOk E D g) : ∃ h', defaultRelOfDoc E D h = .ok h' := by
  unfold defaultRelOfDoc
  cases hd : D.defaultRel with
  | none => exact ⟨h, rfl⟩
  | some r =>
    obtain ⟨⟨i, hi⟩, a, b, has, rfl, ha, hb, hreg, hhas⟩ := hok r hd
    simp only
    rw [splitOn_two.2 ⟨rfl, ha, hb⟩]
    simp only [hreg, hhas, if_true]
    rw [← refers_eq ha hb, refers_ext hD hg ht.ext (InDoc.default hd), hi, getIri_own ht.ext]
    exact ⟨_, rfl⟩

/-! ### the second loop -/

/-- The triples that the second loop adds. -/
inductive SecondSays (D : Doc) (g : Gr) (e : Entity) : Kind → Triple → Prop where
  | inverse {r i : Text} : e.inverse = some r → refers D g r = .ok i → SecondSays D g e .relationship ⟨.iri (iriOf D g e), .inverseOf, .iri i⟩
  | default : e.defaultRel = some true → SecondSays D g e .relationship ⟨.iri (base D g), .defaultRel, .iri (iriOf D g e)⟩
  | range {d i : Text} : e.datatype = some d → Yaml.getRdflib d = .ok (some i) → SecondSays D g e .attribute ⟨.iri (iriOf D g e), .range, .iri i⟩
  | datatype {d i : Text} : e.datatype = some d → Yaml.getRdflib d = .ok (some i) → Yaml.dtPrefix <+: i → SecondSays D g e .attribute ⟨.iri i, .type, .iri Owl.datatype.iri⟩

/-- What is needed for them. -/
def SecondOk (D : Doc) (g : Gr) (e : Entity) : Kind → Prop
  | .relationship => ∀ r, e.inverse = some r → ∃ i, refers D g r = .ok i
  | .attribute => ∀ d, e.datatype = some d → ∃ i, Yaml.getRdflib d = .ok (some i)
  | .class_ => True

theorem second_tame {D : Doc} {g h h' : Gr} (hD : Proper D) (ht : Tame D g h) {e : Entity} (he : e ∈ D.entities) {k : Kind} (ha : Adds h h' (SecondSays D g e k)) : Tame D g h' := by
  refine ht.adds ha ?_ ?_
  · intro t h
    cases h with
    | inverse _ _ => exact new_entity hD he (by simp) _
    | default _ => exact new_base (by simp) _
    | range _ _ => exact new_entity hD he (by simp) _
    | datatype _ _ hp =>
      obtain ⟨u, hu⟩ := hp
      exact ⟨by simp, Or.inr (Or.inr ⟨u, by rw [hu], rfl⟩)⟩
  · intro i k' hk' h
    generalize htt : (⟨.iri i, .type, .iri k'.iri⟩ : Triple) = t at h
    cases h with
    | inverse _ _ => injection htt with _ h _; cases h
    | default _ => injection htt with _ h _; cases h
    | range _ _ => injection htt with _ h _; cases h
    | datatype _ _ hp =>
      injection htt with _ _ h
      injection h with h
      rw [owl_inj h] at hk'
      exact absurd hk' (by decide)

theorem second_rel {D : Doc} {g h : Gr} (hD : Proper D) (hg : Ready D g) (ht : Tame D g h) {e : Entity} (he : e ∈ D.entities) :
    (∀ h', (setInverse D h e >>= fun h => defaultRelOfEntity D h e) = .ok h' → Adds h h' (SecondSays D g e .relationship) ∧ SecondOk D g e .relationship) ∧
    (SecondOk D g e .relationship → ∃ h', (setInverse D h e >>= fun h => defaultRelOfEntity D h e) = .ok h') := by
  have hdef : ∀ h1, Ext D g h1 → ∃ h2, defaultRelOfEntity D h1 e = .ok h2 ∧ Adds h1 h2 (fun t => e.defaultRel = some true ∧ t = ⟨.iri (base D g), .defaultRel, .iri (iriOf D g e)⟩) := by
    intro h1 hx1
    unfold defaultRelOfEntity
    split
    · rename_i hd
      rw [(getIri_entity hD hg hx1 he).1, getIri_own hx1]
      exact ⟨_, rfl, (Adds.one _ _).congr (fun t => ⟨fun h => ⟨hd, h⟩, fun h => h.2⟩)⟩
    · rename_i hd
      exact ⟨h1, rfl, Adds.none (fun t h => hd h.1)⟩
  unfold setInverse
  cases hi : e.inverse with
  | none =>
    obtain ⟨h2, e2, a2⟩ := hdef h ht.ext
    refine ⟨fun h' hw => ?_, fun _ => ⟨h2, e2⟩⟩
    have : h' = h2 := by
      have hw : defaultRelOfEntity D h e = .ok h' := hw
      rw [e2] at hw; cases hw; rfl
    subst this
    refine ⟨a2.congr (fun t => ⟨?_, fun hs => ?_⟩), fun r hr => ?_⟩
    · rintro ⟨h, rfl⟩; exact .default h
    · cases hs with
      | inverse hr _ => rw [hi] at hr; cases hr
      | default hd => exact ⟨hd, rfl⟩
    · rw [hi] at hr; cases hr
  | some r =>
    have hx1 : ∀ i, Ext D g (h.add ⟨.iri (iriOf D g e), .inverseOf, .iri i⟩) := fun i => (Adds.one h _).ext ht.ext (fun t h => by rw [h]; exact new_entity hD he (by simp) _)
    have heq : (refers D h r >>= fun i => getIri D h [] e.name >>= fun iri => (.ok (h.add ⟨.iri iri, .inverseOf, .iri i⟩) : Run Gr)) = (refers D g r >>= fun i => .ok (h.add ⟨.iri (iriOf D g e), .inverseOf, .iri i⟩)) := by
      rw [refers_ext hD hg ht.ext (InDoc.inverse he hi), (getIri_entity hD hg ht.ext he).1]
      rfl
    constructor
    · intro h' hw
      replace hw : ((refers D h r >>= fun i => getIri D h [] e.name >>= fun iri => (.ok (h.add ⟨.iri iri, .inverseOf, .iri i⟩) : Run Gr)) >>= fun h => defaultRelOfEntity D h e) = .ok h' := hw
      rw [heq, bind_ok] at hw
      obtain ⟨h1, hw1, hw⟩ := hw
      rw [bind_ok] at hw1
      obtain ⟨i, hr, hw1⟩ := hw1
      cases hw1
      obtain ⟨h2, e2, a2⟩ := hdef _ (hx1 i)
      rw [e2] at hw
      cases hw
      refine ⟨((Adds.one h _).trans a2).congr (fun t => ⟨?_, fun hs => ?_⟩), fun r' hr' => ?_⟩
      · rintro (rfl | ⟨h, rfl⟩)
        · exact .inverse hi hr
        · exact .default h
      · cases hs with
        | inverse hi' hr' =>
          rw [hi] at hi'; cases hi'
          rw [hr] at hr'; cases hr'
          exact Or.inl rfl
        | default hd => exact Or.inr ⟨hd, rfl⟩
      · rw [hi] at hr'; cases hr'; exact ⟨i, hr⟩
    · intro hok
      obtain ⟨i, hr⟩ := hok r hi
      obtain ⟨h2, e2, _⟩ := hdef _ (hx1 i)
      refine ⟨h2, ?_⟩
      change ((refers D h r >>= fun i => getIri D h [] e.name >>= fun iri => (.ok (h.add ⟨.iri iri, .inverseOf, .iri i⟩) : Run Gr)) >>= fun h => defaultRelOfEntity D h e) = .ok h2
      rw [heq, hr]
      exact e2

theorem second_attr {D : Doc} {g h : Gr} (hD : Proper D) (hg : Ready D g) (ht : Tame D g h) {e : Entity} (he : e ∈ D.entities) :
    (∀ h', setDatatype D h e = .ok h' → Adds h h' (SecondSays D g e .attribute) ∧ SecondOk D g e .attribute) ∧
    (SecondOk D g e .attribute → ∃ h', setDatatype D h e = .ok h') := by
  unfold setDatatype
  cases hd : e.datatype with
  | none =>
    refine ⟨fun h' hw => ?_, fun _ => ⟨h, rfl⟩⟩
    cases hw
    refine ⟨Adds.none (fun t hs => ?_), fun r hr => ?_⟩
    · cases hs with
      | range hr _ => rw [hd] at hr; cases hr
      | datatype hr _ _ => rw [hd] at hr; cases hr
    · rw [hd] at hr; cases hr
  | some d =>
    simp only
    rw [(getIri_entity hD hg ht.ext he).1]
    change (∀ h', (match Yaml.getRdflib d with
      | .error x => raise x
      | .ok none => raise .assertionError
      | .ok (some i) => .ok ((if Yaml.dtPrefix.isPrefixOf i then h.add ⟨.iri i, .type, .iri Owl.datatype.iri⟩ else h).add ⟨.iri (iriOf D g e), .range, .iri i⟩) : Run Gr) = .ok h' → _) ∧
      (_ → ∃ h', (match Yaml.getRdflib d with
      | .error x => raise x
      | .ok none => raise .assertionError
      | .ok (some i) => .ok ((if Yaml.dtPrefix.isPrefixOf i then h.add ⟨.iri i, .type, .iri Owl.datatype.iri⟩ else h).add ⟨.iri (iriOf D g e), .range, .iri i⟩) : Run Gr) = .ok h')
    constructor
    · intro h' hw
      split at hw
      · cases hw
      · cases hw
      · rename_i i hi
        cases hw
        refine ⟨?_, fun d' hd' => ?_⟩
        · split
          · rename_i hp
            refine ((Adds.one h _).trans (Adds.one _ _)).congr (fun t => ⟨?_, fun hs => ?_⟩)
            · rintro (rfl | rfl)
              · exact .datatype hd hi (List.isPrefixOf_iff_prefix.1 hp)
              · exact .range hd hi
            · cases hs with
              | range hd' hi' =>
                rw [hd] at hd'; cases hd'
                rw [hi] at hi'; cases hi'
                exact Or.inr rfl
              | datatype hd' hi' _ =>
                rw [hd] at hd'; cases hd'
                rw [hi] at hi'; cases hi'
                exact Or.inl rfl
          · rename_i hp
            refine (Adds.one h _).congr (fun t => ⟨?_, fun hs => ?_⟩)
            · rintro rfl; exact .range hd hi
            · cases hs with
              | range hd' hi' =>
                rw [hd] at hd'; cases hd'
                rw [hi] at hi'; cases hi'
                rfl
              | datatype hd' hi' hp' =>
                rw [hd] at hd'; cases hd'
                rw [hi] at hi'; cases hi'
                exact absurd (List.isPrefixOf_iff_prefix.2 hp') hp
        · rw [hd] at hd'; cases hd'; exact ⟨i, hi⟩
    · intro hok
      obtain ⟨i, hi⟩ := hok d hd
      rw [hi]
      exact ⟨_, rfl⟩

theorem secondLoop_ok {D : Doc} {g : Gr} (hD : Proper D) (hg : Ready D g) {l : List (Entity × Kind)} (hl : ∀ p ∈ l, p.1 ∈ D.entities) {h h' : Gr} (ht : Tame D g h)
    (hw : secondLoop D l h = .ok h') : Adds h h' (fun t => ∃ p ∈ l, SecondSays D g p.1 p.2 t) ∧ Tame D g h' ∧ ∀ p ∈ l, SecondOk D g p.1 p.2 := by
  induction l generalizing h with
  | nil => cases hw; exact ⟨Adds.none (fun t => by rintro ⟨p, hp, _⟩; cases hp), ht, fun p hp => by cases hp⟩
  | cons p l ih =>
    obtain ⟨e, k⟩ := p
    have he : e ∈ D.entities := hl _ List.mem_cons_self
    have key : ∃ h1, Adds h h1 (SecondSays D g e k) ∧ SecondOk D g e k ∧ secondLoop D l h1 = .ok h' := by
      cases k with
      | class_ => exact ⟨h, Adds.none (fun t hs => by cases hs), trivial, hw⟩
      | relationship =>
        rw [secondLoop, bind_ok] at hw
        obtain ⟨h1, w1, hw⟩ := hw
        rw [bind_ok] at hw
        obtain ⟨h2, w2, hw⟩ := hw
        obtain ⟨a, b⟩ := (second_rel hD hg ht he).1 h2 (bind_ok.2 ⟨h1, w1, w2⟩)
        exact ⟨h2, a, b, hw⟩
      | «attribute» =>
        rw [secondLoop, bind_ok] at hw
        obtain ⟨h1, w1, hw⟩ := hw
        obtain ⟨a, b⟩ := (second_attr hD hg ht he).1 h1 w1
        exact ⟨h1, a, b, hw⟩
    obtain ⟨h1, a1, o1, hw⟩ := key
    obtain ⟨a2, t2, o2⟩ := ih (fun p hp => hl p (List.mem_cons_of_mem _ hp)) (second_tame hD ht he a1) hw
    refine ⟨(a1.trans a2).congr (fun t => ⟨?_, ?_⟩), t2, ?_⟩
    · rintro (h | ⟨p, hp, h⟩)
      · exact ⟨_, List.mem_cons_self, h⟩
      · exact ⟨p, List.mem_cons_of_mem _ hp, h⟩
    · rintro ⟨p, hp, h⟩
      rcases List.mem_cons.1 hp with rfl | hp
      · exact Or.inl h
      · exact Or.inr ⟨p, hp, h⟩
    · intro p hp
      rcases List.mem_cons.1 hp with rfl | hp
      · exact o1
      · exact o2 p hp

theorem secondLoop_total {D : Doc} {g : Gr} (hD : Proper D) (hg : Ready D g) {l : List (Entity × Kind)} (hl : ∀ p ∈ l, p.1 ∈ D.entities) {h : Gr} (ht : Tame D g h)
    (hok : ∀ p ∈ l, SecondOk D g p.1 p.2) : ∃ h', secondLoop D l h = .ok h' := by
  induction l generalizing h with
  | nil => exact ⟨h, rfl⟩
  | cons p l ih =>
    obtain ⟨e, k⟩ := p
    have he : e ∈ D.entities := hl _ List.mem_cons_self
    have ho := hok _ List.mem_cons_self
    have ih := fun h1 t1 => ih (h := h1) (fun p hp => hl p (List.mem_cons_of_mem _ hp)) t1 (fun p hp => hok p (List.mem_cons_of_mem _ hp))
    cases k with
    | class_ => exact ih h ht
    | relationship =>
      obtain ⟨h2, e2⟩ := (second_rel hD hg ht he).2 ho
      obtain ⟨h', e'⟩ := ih h2 (second_tame hD ht he ((second_rel hD hg ht he).1 h2 e2).1)
      rw [bind_ok] at e2
      obtain ⟨h1, e1, e2⟩ := e2
      exact ⟨h', bind_ok.2 ⟨h1, e1, bind_ok.2 ⟨h2, e2, e'⟩⟩⟩
    | «attribute» =>
      obtain ⟨h1, e1⟩ := (second_attr hD hg ht he).2 ho
      obtain ⟨h', e'⟩ := ih h1 (second_tame hD ht he ((second_attr hD hg ht he).1 h1 e1).1)
      exact ⟨h', bind_ok.2 ⟨h1, e1, e'⟩⟩

end Osp.Ymlp
