import Verif.Ymlp.Order
/-!
# From accepted documents to the parser: C67 and C68 for YAML documents
-/
namespace Osp.Ymlp
open Osp.Yaml (Yaml Entries get IsName IsQualified Scalar Document EntityDef ClassExpr isNameChar)

theorem nameChar_plain {c : Char} (h : isNameChar c = true) : c ≠ '#' ∧ c ≠ '/' ∧ c ≠ '.' := by
  refine ⟨?_, ?_, ?_⟩ <;> (rintro rfl; exact absurd h (by decide))

theorem name_plain {t : Text} (h : IsName t) : Plain t ∧ '.' ∉ t ∧ t ≠ [] := by
  obtain ⟨c, cs, rfl, hc, hcs⟩ := h
  have hall : ∀ x ∈ c :: cs, isNameChar x = true := by
    intro x hx
    rcases List.mem_cons.1 hx with rfl | hx
    · simp [isNameChar, hc]
    · exact hcs x hx
  exact ⟨⟨fun hm => (nameChar_plain (hall _ hm)).1 rfl, fun hm => (nameChar_plain (hall _ hm)).2.1 rfl⟩, fun hm => (nameChar_plain (hall _ hm)).2.2 rfl, by simp⟩

theorem plain_lf : Plain ['\n'] := ⟨by decide, by decide⟩

theorem scalar_name {t : Text} (h : Scalar IsName (.str t)) : Plain t ∧ t ≠ [] := by
  obtain ⟨u, hu, hh⟩ := h
  cases hu
  rcases hh with hh | ⟨u, rfl, hh⟩
  · exact ⟨(name_plain hh).1, (name_plain hh).2.2⟩
  · exact ⟨plain_append.2 ⟨(name_plain hh).1, plain_lf⟩, by simp⟩

theorem scalar_qualified {t : Text} (h : Scalar IsQualified (.str t)) : ∃ a b, t = a ++ '.' :: b ∧ '.' ∉ a ∧ '.' ∉ b ∧ Plain a ∧ Plain b ∧ a ≠ [] ∧ b ≠ [] := by
  obtain ⟨u, hu, hh⟩ := h
  cases hu
  rcases hh with ⟨a, b, rfl, ha, hb⟩ | ⟨u, rfl, a, b, rfl, ha, hb⟩
  · have ha := name_plain ha
    have hb := name_plain hb
    exact ⟨a, b, rfl, ha.2.1, hb.2.1, ha.1, hb.1, ha.2.2, hb.2.2⟩
  · have ha := name_plain ha
    have hb := name_plain hb
    refine ⟨a, b ++ ['\n'], by simp, ha.2.1, ?_, ha.1, plain_append.2 ⟨hb.1, plain_lf⟩, ha.2.2, by simp⟩
    rw [List.mem_append]
    rintro (h | h)
    · exact hb.2.1 h
    · exact absurd h (by decide)

theorem allOf_mem {α β : Type} {f : α → Option β} {l : List α} {m : List β} (h : allOf f l = some m) : ∀ y ∈ m, ∃ x ∈ l, f x = some y := by
  induction l generalizing m with
  | nil => cases h; intro y hy; cases hy
  | cons x l ih =>
    rw [allOf] at h
    split at h
    · rename_i y ys h1 h2
      cases h
      intro z hz
      rcases List.mem_cons.1 hz with rfl | hz
      · exact ⟨x, List.mem_cons_self, h1⟩
      · obtain ⟨w, hw, hh⟩ := ih h2 z hz
        exact ⟨w, List.mem_cons_of_mem _ hw, hh⟩
    · cases h

theorem allOf_total {α β : Type} {f : α → Option β} {l : List α} (h : ∀ x ∈ l, ∃ y, f x = some y) : ∃ m, allOf f l = some m := by
  induction l with
  | nil => exact ⟨[], rfl⟩
  | cons x l ih =>
    obtain ⟨m, hm⟩ := ih (fun y hy => h y (List.mem_cons_of_mem _ hy))
    obtain ⟨y, hy⟩ := h x List.mem_cons_self
    exact ⟨y :: m, by rw [allOf, hy, hm]⟩

theorem textAt_some {l : Entries} {k : String} {t : Text} (h : textAt l k = some (some t)) : get l k.toList = some (.str t) := by
  unfold textAt at h
  split at h
  · cases h
  · rename_i hh; cases h; exact hh
  · cases h

theorem attributesAt_some {l : Entries} {m : List (Text × Yaml)} (h : attributesAt l = some (some m)) :
    ∃ d, get l "attributes".toList = some (.dict d) ∧ ∀ r v, (r, v) ∈ m → (.str r, v) ∈ d := by
  unfold attributesAt at h
  split at h
  · cases h
  · rename_i d hd
    refine ⟨d, hd, ?_⟩
    cases ha : allOf (fun e : Yaml × Yaml => (asText e.1).map (fun n => (n, e.2))) d with
    | none => rw [ha] at h; cases h
    | some m' =>
      rw [ha] at h
      cases h
      intro r v hrv
      obtain ⟨⟨x, y⟩, hx, hh⟩ := allOf_mem ha _ hrv
      cases x with
      | str t => cases hh; exact hx
      | _ => cases hh
  · cases h

/-- What is known of an entity taken from the document. -/
theorem viewEntity_some {k v : Yaml} {e : Entity} (h : viewEntity (k, v) = some e) :
    k = .str e.name ∧ ∃ l sup, v = .dict l ∧ get l "subclass_of".toList = some (.list sup) ∧ e.supers = sup.map asText ∧ textAt l "inverse" = some e.inverse ∧
      attributesAt l = some e.attributes ∧ e.raw = .dict l ∧ textAt l "description" = some e.description ∧ textAt l "datatype" = some e.datatype ∧
      e.defaultRel = (get l "default_rel".toList).map truth := by
  unfold viewEntity at h
  split at h
  · rename_i name l h1 h2
    simp only at h1 h2
    subst h1 h2
    split at h
    · rename_i d sup i t a hd hs hi ht ha
      cases h
      exact ⟨rfl, l, sup, rfl, hs, rfl, hi, ha, rfl, hd, ht, rfl⟩
    · cases h
  · cases h

/-- What is known of a document taken apart. -/
theorem view_some {doc : Yaml} {D : Doc} (h : view doc = some D) :
    ∃ l o, doc = .dict l ∧ textAt l "namespace" = some (some D.namespace_) ∧ textAt l "default_rel" = some D.defaultRel ∧ get l "ontology".toList = some (.dict o) ∧
      allOf viewEntity o = some D.entities := by
  unfold view at h
  split at h
  · rename_i l
    split at h
    · rename_i n d o hn hd ho
      cases ha : allOf viewEntity o with
      | none => rw [ha] at h; cases h
      | some es => rw [ha] at h; cases h; exact ⟨l, o, rfl, hn, hd, ho, ha⟩
    · cases h
  · cases h

/-- An accepted document gives the parser what it expects. -/
theorem accepted_proper {dig : Char → Bool} {doc : Yaml} {D : Doc} (hd : Document dig doc) (hv : view doc = some D) (hn : (D.entities.map (·.name)).Nodup) (hns : Plain D.namespace_) : Proper D := by
  obtain ⟨l, o, rfl, hns', hdef, hon, hes⟩ := view_some hv
  obtain ⟨l', hl, _, hmn, hmo, hod, _⟩ := hd
  cases hl
  obtain ⟨v, hv1, o', rfl, hen⟩ := hmo
  rw [hon] at hv1
  cases hv1
  have hent : ∀ e ∈ D.entities, Scalar IsName (.str e.name) ∧ ∃ v, EntityDef dig v ∧ viewEntity (.str e.name, v) = some e := by
    intro e he
    obtain ⟨⟨k, v⟩, hkv, hh⟩ := allOf_mem hes e he
    have := (viewEntity_some hh).1
    subst this
    obtain ⟨h1, h2⟩ := hen _ hkv
    exact ⟨h1, v, h2, hh⟩
  refine ⟨hn, fun e he => ?_, ?_, ?_, plain_lower hns⟩
  · have := scalar_name (hent e he).1
    exact ⟨this.2, this.1⟩
  · intro r hr
    have entityDef : ∀ e ∈ D.entities, ∃ l sup, Yaml.Common dig l ∧ Yaml.ClassPart dig l ∧ Yaml.RelationshipPart dig l ∧ get l "subclass_of".toList = some (.list sup) ∧ e.supers = sup.map asText ∧
        textAt l "inverse" = some e.inverse ∧ attributesAt l = some e.attributes := by
      intro e he
      obtain ⟨_, v, hdef, hh⟩ := hent e he
      obtain ⟨_, l, sup, rfl, h1, h2, h3, h4, _⟩ := viewEntity_some hh
      obtain ⟨l', hl', hc, hcp, hrp, _⟩ := hdef
      cases hl'
      exact ⟨l, sup, hc, hcp, hrp, h1, h2, h3, h4⟩
    cases hr with
    | @super e r he hs =>
      obtain ⟨l, sup, hc, _, _, h1, h2, _, _⟩ := entityDef e he
      unfold Super at hs
      rw [h2] at hs
      obtain ⟨x, hx, hxr⟩ := List.mem_map.1 hs
      obtain ⟨v, hv, l2, rfl, hall⟩ := hc.2
      rw [h1] at hv
      cases hv
      have hce := hall x hx
      cases x with
      | str t =>
        cases hxr
        cases hce with
        | name hq => exact scalar_qualified hq
      | _ => cases hxr
    | @inverse e r he hi =>
      obtain ⟨l, sup, _, _, hrp, _, _, h3, _⟩ := entityDef e he
      rw [hi] at h3
      exact scalar_qualified (hrp.1 _ (textAt_some h3))
    | @«attribute» e m r v he ha hm =>
      obtain ⟨l, sup, _, hcp, _, _, _, _, h4⟩ := entityDef e he
      rw [ha] at h4
      obtain ⟨d, hd, hmem⟩ := attributesAt_some h4
      obtain ⟨d', hd', hall⟩ := hcp.1 _ hd
      cases hd'
      exact scalar_qualified (hall _ (hmem r v hm)).1
    | @default r hr =>
      rw [hr] at hdef
      exact scalar_qualified (hod _ (textAt_some hdef))
  · obtain ⟨v, hv1, c, t, hv2, _⟩ := hmn
    rw [textAt_some hns'] at hv1
    cases hv1
    have hv2 : D.namespace_ = c :: t := by injection hv2
    rw [Doc.own, hv2]
    simp [Names.lower]

/-- The document uses texts for names and references (YAML reads some unquoted words, such as `No`, as truth values). -/
structure Textual (l : Entries) : Prop where
  ns : ∀ v, get l "namespace".toList = some v → ∃ t, v = .str t
  dflt : ∀ v, get l "default_rel".toList = some v → ∃ t, v = .str t
  names : ∀ o, get l "ontology".toList = some (.dict o) → ∀ e ∈ o, ∃ t, e.1 = .str t
  parts : ∀ o, get l "ontology".toList = some (.dict o) → ∀ e ∈ o, ∀ d, e.2 = .dict d → (∀ v, get d "inverse".toList = some v → ∃ t, v = .str t) ∧
    (∀ v, get d "datatype".toList = some v → ∃ t, v = .str t) ∧ ∀ a, get d "attributes".toList = some (.dict a) → ∀ x ∈ a, ∃ t, x.1 = .str t

theorem textAt_total {l : Entries} {k : String} (h : ∀ v, get l k.toList = some v → ∃ t, v = .str t) : ∃ o, textAt l k = some o ∧ (o.isSome ↔ (get l k.toList).isSome) := by
  unfold textAt
  cases hg : get l k.toList with
  | none => exact ⟨none, rfl, by simp⟩
  | some v =>
    obtain ⟨t, rfl⟩ := h v hg
    exact ⟨some t, rfl, by simp⟩

/-- Accepted documents that use texts for names and references can be taken apart. -/
theorem accepted_viewed {dig : Char → Bool} {l : Entries} (hd : Document dig (.dict l)) (ht : Textual l) : ∃ D, view (.dict l) = some D := by
  obtain ⟨l', hl, _, hmn, hmo, hod, _⟩ := hd
  cases hl
  obtain ⟨v, hv1, o, rfl, hen⟩ := hmo
  obtain ⟨vn, hvn, _⟩ := hmn
  obtain ⟨n, rfl⟩ := ht.ns vn hvn
  obtain ⟨d, hdd, _⟩ := textAt_total ht.dflt
  have hn : textAt l "namespace" = some (some n) := by unfold textAt; rw [hvn]
  obtain ⟨es, hes⟩ := allOf_total (f := viewEntity) (l := o) (by
    rintro ⟨k, v⟩ he
    obtain ⟨t, hk⟩ := ht.names o hv1 _ he
    simp only at hk
    subst hk
    obtain ⟨h1, h2⟩ := hen _ he
    obtain ⟨m, hm, hc, hcp, hrp, hap, _⟩ := h2
    simp only at hm
    subst hm
    obtain ⟨hi, hdt, hat⟩ := ht.parts o hv1 _ he m rfl
    obtain ⟨x1, e1, _⟩ := textAt_total (k := "description") (l := m) (fun v hv => hc.1 v hv)
    obtain ⟨x2, e2, _⟩ := textAt_total hi
    obtain ⟨x3, e3, _⟩ := textAt_total hdt
    obtain ⟨vs, hvs, sup, rfl, _⟩ := hc.2
    have ha : ∃ a, attributesAt m = some a := by
      unfold attributesAt
      cases hg : get m "attributes".toList with
      | none => exact ⟨none, rfl⟩
      | some v =>
        obtain ⟨d, rfl, _⟩ := hcp.1 v hg
        obtain ⟨as, has⟩ := allOf_total (f := fun e : Yaml × Yaml => (asText e.1).map (fun n => (n, e.2))) (l := d) (by
          intro x hx
          obtain ⟨t, hxt⟩ := hat d hg x hx
          exact ⟨(t, x.2), by rw [hxt]; rfl⟩)
        exact ⟨some as, by simp only [has]; rfl⟩
    obtain ⟨a, ha⟩ := ha
    exact ⟨_, by simp only [viewEntity, e1, hvs, e2, e3, ha]; rfl⟩)
  exact ⟨⟨n, d, es⟩, by simp only [view, hn, hdd, hv1, hes]; rfl⟩

/-- C68, for documents: parsing succeeds exactly if the document has the right format and is fine. -/
theorem document_parsed_iff {E : Env} {doc : Yaml} {D : Doc} {g : Gr} (hv : view doc = some D) (hn : (D.entities.map (·.name)).Nodup) (hns : Plain D.namespace_) (hg : Ready D g) :
    (∃ fuel g', parse E fuel doc g = some (.ok g')) ↔ Yaml.validateDoc E.dig E.limit doc = .ok () ∧ Fine E D g := by
  constructor
  · rintro ⟨fuel, g', h⟩
    unfold parse at h
    split at h
    · cases h
    · rename_i hok
      rw [hv] at h
      injection h with h
      have hD := accepted_proper (Yaml.accepted_is_ontology _ _ _ hok) hv hn hns
      exact ⟨hok, (parse_succeeds_iff hD hg).1 ⟨fuel, g', h⟩⟩
  · rintro ⟨hok, hf⟩
    have hD := accepted_proper (Yaml.accepted_is_ontology _ _ _ hok) hv hn hns
    obtain ⟨fuel, g', h⟩ := (parse_succeeds_iff hD hg).2 hf
    refine ⟨fuel, g', ?_⟩
    unfold parse
    rw [hok, hv]
    exact congrArg some h

/-- C67, for documents: the triples that are added. -/
theorem document_exact {E : Env} {doc : Yaml} {D : Doc} {g g' : Gr} {fuel : Nat} (h : parse E fuel doc g = some (.ok g')) (hv : view doc = some D) (hn : (D.entities.map (·.name)).Nodup)
    (hns : Plain D.namespace_) (hg : Ready D g) : ∃ made, Made D g made ∧ ∀ t, t ∈ g'.triples ↔ t ∈ g.triples ∨ Says D g t ∨ ∃ m ∈ made, AttrSays m.1 m.2 t := by
  unfold parse at h
  split at h
  · cases h
  · rename_i hok
    rw [hv] at h
    injection h with h
    exact parse_exact (accepted_proper (Yaml.accepted_is_ontology _ _ _ hok) hv hn hns) hg h

end Osp.Ymlp
