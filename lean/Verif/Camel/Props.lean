import Verif.Camel.Caps
/-!
# Converting a document (C77)
-/
namespace Osp.Camel

open Osp.Yaml Osp.Names

variable {C : Conv}

/-! ### the document is renamed -/

/-- What a conversion of a part of the document returns. Specification. -/
def Renames {α : Type} (C : Conv) (s : Asked) (r : α × Asked) (f : (Text → Text) → α) : Prop :=
  s <+: r.2 ∧ ∀ ans, Agrees ans r.2 → r.1 = f (newName C.ns C.orig ans)

theorem renames_seq {α β γ : Type} {s s1 s2 : Asked} {a : α} {b : β} {f : (Text → Text) → α} {g : (Text → Text) → β} (c : α → β → γ)
    (h1 : Renames C s (a, s1) f) (h2 : Renames C s1 (b, s2) g) : Renames C s (c a b, s2) (fun n => c (f n) (g n)) := by
  refine ⟨h1.1.trans h2.1, fun ans ha => ?_⟩
  show c a b = c _ _
  have e1 : a = _ := h1.2 ans (agrees_prefix h2.1 ha)
  have e2 : b = _ := h2.2 ans ha
  rw [← e1, ← e2]

theorem renames_pure {α : Type} {s : Asked} {a : α} {f : (Text → Text) → α} (h : ∀ n, a = f n) : Renames C s (a, s) f :=
  ⟨List.prefix_refl _, fun _ _ => h _⟩

theorem renames_map {α β : Type} {s s1 : Asked} {a : α} {f : (Text → Text) → α} (c : α → β) (h : Renames C s (a, s1) f) : Renames C s (c a, s1) (fun n => c (f n)) := by
  refine ⟨h.1, fun ans ha => ?_⟩
  have e : a = _ := h.2 ans ha
  show c a = c _
  rw [← e]

/-- Proof device: the value of a key that is not renamed. -/
def renameItem (f : Text → Text) (top : Bool) (v : Yaml) : Yaml := match v with
  | .str t => .str (renameText f top t)
  | v => rename f false v

theorem renameL_cons (f : Text → Text) (top : Bool) (x : Yaml) (l : List Yaml) : renameL f top (x :: l) = renameItem f top x :: renameL f top l := by
  cases x <;> rfl

/-- Proof device: an entry. -/
def renameEntry (f : Text → Text) (top : Bool) (k v : Yaml) : Yaml × Yaml := match keyName top k with
  | some t => (.str (f t), rename f false v)
  | none => (k, renameItem f top v)

theorem renameE_cons (f : Text → Text) (top : Bool) (k v : Yaml) (l : List (Yaml × Yaml)) : renameE f top ((k, v) :: l) = renameEntry f top k v :: renameE f top l := by
  by_cases hk : ∃ t, k = .str t
  case neg => cases k <;> first
    | exact absurd ⟨_, rfl⟩ hk
    | (cases v <;> rfl)
  obtain ⟨t, rfl⟩ := hk
  have e : renameEntry f top (.str t) v = if (pattern top).matches t = true then (Yaml.str (f t), rename f false v) else (.str t, renameItem f top v) := by
    have hk : keyName top (.str t) = if (pattern top).matches t = true then some t else none := rfl
    unfold renameEntry
    rw [hk]
    by_cases h : (pattern top).matches t = true
    · rw [if_pos h, if_pos h]
    · rw [if_neg h, if_neg h]
  rw [e]
  cases v <;> rw [renameE] <;> first
    | rfl
    | (intro t h; cases h)

theorem leaf_spec (top : Bool) (t : Text) (s : Asked) (r : Yaml × Asked) (h : leaf C top t s = .ok r) : Renames C s r (fun f => .str (renameText f top t)) := by
  unfold leaf at h
  split at h
  · rename_i ht
    cases h
    exact renames_pure (fun n => by unfold renameText; rw [if_pos ht])
  · rename_i ht
    split at h
    · rename_i hm
      cases hc : toCamelCase C t s with
      | error e => rw [hc] at h; cases h
      | ok r' =>
        rw [hc] at h
        cases h
        obtain ⟨h1, h2⟩ := toCamelCase_spec t s r' hc
        refine ⟨h1, fun ans ha => ?_⟩
        show Yaml.str r'.1 = Yaml.str (renameText _ top t)
        unfold renameText
        rw [if_neg ht, if_pos hm, ← h2 ans ha]
    · rename_i hm
      cases h
      exact renames_pure (fun n => by unfold renameText; rw [if_neg ht, if_neg hm])

mutual
theorem nested_spec (top : Bool) : ∀ (d : Yaml) (s : Asked) (r : Yaml × Asked), nested C top d s = .ok r → Renames C s r (fun f => rename f top d)
  | .list l, s, r, h => by
    rw [nested] at h
    split at h
    · cases h
    · rename_i l' s1 hl
      cases h
      exact renames_map Yaml.list (nestedL_spec top l s _ hl)
  | .dict l, s, r, h => by
    rw [nested] at h
    split at h
    · cases h
    · rename_i l' s1 hl
      cases h
      exact renames_map (fun l => Yaml.dict (dictOf l)) (nestedE_spec top l s _ hl)
  | .null, s, r, h => by cases h; exact renames_pure (fun _ => rfl)
  | .bool _, s, r, h => by cases h; exact renames_pure (fun _ => rfl)
  | .int _, s, r, h => by cases h; exact renames_pure (fun _ => rfl)
  | .float _, s, r, h => by cases h; exact renames_pure (fun _ => rfl)
  | .str _, s, r, h => by cases h; exact renames_pure (fun _ => rfl)
  | .other, s, r, h => by cases h; exact renames_pure (fun _ => rfl)
theorem nestedL_spec (top : Bool) : ∀ (l : List Yaml) (s : Asked) (r : List Yaml × Asked), nestedL C top l s = .ok r → Renames C s r (fun f => renameL f top l)
  | [], s, r, h => by cases h; exact renames_pure (fun _ => rfl)
  | x :: l, s, r, h => by
    rw [nestedL] at h
    split at h
    · cases h
    · rename_i x' s1 hx
      have h1 : Renames C s (x', s1) (fun f => renameItem f top x) := by
        have hn := nested_spec false x s (x', s1)
        cases x with
        | str t => exact leaf_spec top t s _ hx
        | _ => exact hn hx
      split at h
      · cases h
      · rename_i l' s2 hl
        cases h
        have h2 := nestedL_spec top l s1 _ hl
        have h3 := renames_seq List.cons h1 h2
        have e : (fun f => renameL f top (x :: l)) = fun f => renameItem f top x :: renameL f top l := funext (fun f => renameL_cons f top x l)
        rw [e]
        exact h3
theorem nestedE_spec (top : Bool) : ∀ (l : List (Yaml × Yaml)) (s : Asked) (r : List (Yaml × Yaml) × Asked), nestedE C top l s = .ok r →
    Renames C s r (fun f => renameE f top l)
  | [], s, r, h => by cases h; exact renames_pure (fun _ => rfl)
  | (k, v) :: l, s, r, h => by
    rw [nestedE] at h
    split at h
    · cases h
    · rename_i e' s1 he
      have h1 : Renames C s (e', s1) (fun f => renameEntry f top k v) := by
        have hn := nested_spec false v
        unfold entry at he
        unfold renameEntry
        cases hk : keyName top k with
        | some t =>
          rw [hk] at he
          simp only at he ⊢
          split at he
          · cases he
          · rename_i t' s2 ht
            split at he
            · cases he
            · rename_i v' s3 hv
              cases he
              exact renames_seq (f := fun f => f t) (fun a b => (Yaml.str a, b)) (toCamelCase_spec t s _ ht) (hn _ _ hv)
        | none =>
          rw [hk] at he
          simp only at he ⊢
          split at he
          · cases he
          · rename_i v' s2 hv
            cases he
            refine renames_map (fun v => (k, v)) ?_
            cases v with
            | str t => exact leaf_spec top t s _ hv
            | _ => exact hn _ _ hv
      split at h
      · cases h
      · rename_i l' s2 hl
        cases h
        have h2 := nestedE_spec top l s1 _ hl
        have h3 := renames_seq List.cons h1 h2
        have e : (fun f => renameE f top ((k, v) :: l)) = fun f => renameEntry f top k v :: renameE f top l := funext (fun f => renameE_cons f top k v l)
        rw [e]
        exact h3
end

/-! ### the questions -/

/-- The name of an entity of another namespace. Specification. -/
def Foreign (ns w : Text) : Prop := ∃ p n, w = p ++ '.' :: n ∧ '.' ∉ p ∧ '.' ∉ n ∧ lower p ≠ ns ∧ w ∉ cubaWords

/-- Proof device. -/
def Stable (C : Conv) (P : Asked → Prop) : Prop := ∀ w s, Foreign C.ns w → P s → P (ask C w s).2

theorem anyIs_stable {P : Asked → Prop} {f : Text → Asked → Run (Option Bool × Asked)} (hf : ∀ w s r, f w s = .ok r → P s → P r.2) (b : Bool) :
    ∀ (l : List Yaml) (s : Asked) (r : Bool × Asked), anyIs f b l s = .ok r → P s → P r.2 := by
  intro l
  induction l with
  | nil => intro s r h hp; cases h; exact hp
  | cons x l ih =>
    intro s r h hp
    cases x <;> try (cases h; done)
    · rename_i w
      unfold anyIs at h
      split at h
      · cases h
      · rename_i r1 s1 h1
        have := hf _ _ _ h1 hp
        split at h
        · cases h; exact this
        · exact ih _ _ h this

theorem caps_stable {P : Asked → Prop} (hP : Stable C P) (k : Nat) : ∀ (i : Bool) (w : Text) (s : Asked) (r : Option Bool × Asked), caps C k i w s = .ok r → P s → P r.2 := by
  induction k with
  | zero => intro i w s r h; cases h
  | succ k ih =>
    intro i w s r h hp
    unfold caps at h
    split at h
    · cases h; exact hp
    rename_i h1
    split at h
    · cases h; exact hp
    rename_i h2
    split at h
    · cases h; exact hp
    rename_i h3
    split at h
    · split at h
      · rename_i ns name hs
        obtain ⟨hw, hq, hn⟩ := splitOn_two hs
        split at h
        · split at h
          · cases h
          · rename_i x s1 hx
            cases h
            exact ih _ _ _ (x, s1) hx hp
        · rename_i hl
          cases h
          refine hP w s ⟨ns, name, hw, hq, hn, hl, ?_⟩ hp
          rw [mem_cubaWords]
          rintro (h | h | h)
          · exact h3 h
          · exact h1 h
          · exact h2 h
      · cases h
    · split at h
      · cases h
      · split at h
        · cases h; exact hp
        · split at h
          · cases h
          · rename_i s1 ha1
            cases h
            exact anyIs_stable (ih true) _ _ _ _ ha1 hp
          · rename_i s1 ha1
            have hp1 := anyIs_stable (ih true) _ _ _ _ ha1 hp
            split at h
            · cases h
            · rename_i s2 ha2
              cases h
              exact anyIs_stable (ih true) _ _ _ _ ha2 hp1
            · rename_i s2 ha2
              cases h
              exact anyIs_stable (ih true) _ _ _ _ ha2 hp1

theorem toCamelCase_stable {P : Asked → Prop} (hP : Stable C P) (w : Text) (s : Asked) (r : Text × Asked) (h : toCamelCase C w s = .ok r) (hp : P s) : P r.2 := by
  unfold toCamelCase at h
  split at h
  · cases h
  · rename_i b s1 hc
    have := caps_stable hP _ _ _ _ _ hc hp
    split at h
    · split at h
      · split at h
        · cases h
        · cases h; exact this
      · cases h
    · split at h
      · cases h
      · cases h; exact this

theorem leaf_stable {P : Asked → Prop} (hP : Stable C P) (top : Bool) (t : Text) (s : Asked) (r : Yaml × Asked) (h : leaf C top t s = .ok r) (hp : P s) : P r.2 := by
  unfold leaf at h
  split at h
  · cases h; exact hp
  · split at h
    · cases hc : toCamelCase C t s with
      | error e => rw [hc] at h; cases h
      | ok r' => rw [hc] at h; cases h; exact toCamelCase_stable hP t s r' hc hp
    · cases h; exact hp

mutual
theorem nested_stable {P : Asked → Prop} (hP : Stable C P) (top : Bool) : ∀ (d : Yaml) (s : Asked) (r : Yaml × Asked), nested C top d s = .ok r → P s → P r.2
  | .list l, s, r, h, hp => by
    rw [nested] at h
    split at h
    · cases h
    · rename_i l' s1 hl
      cases h
      exact nestedL_stable hP top l s _ hl hp
  | .dict l, s, r, h, hp => by
    rw [nested] at h
    split at h
    · cases h
    · rename_i l' s1 hl
      cases h
      exact nestedE_stable hP top l s _ hl hp
  | .null, s, r, h, hp => by cases h; exact hp
  | .bool _, s, r, h, hp => by cases h; exact hp
  | .int _, s, r, h, hp => by cases h; exact hp
  | .float _, s, r, h, hp => by cases h; exact hp
  | .str _, s, r, h, hp => by cases h; exact hp
  | .other, s, r, h, hp => by cases h; exact hp
theorem nestedL_stable {P : Asked → Prop} (hP : Stable C P) (top : Bool) : ∀ (l : List Yaml) (s : Asked) (r : List Yaml × Asked), nestedL C top l s = .ok r → P s → P r.2
  | [], s, r, h, hp => by cases h; exact hp
  | x :: l, s, r, h, hp => by
    rw [nestedL] at h
    split at h
    · cases h
    · rename_i x' s1 hx
      have h1 : P s1 := by
        have hn := nested_stable hP false x s (x', s1)
        cases x with
        | str t => exact leaf_stable hP top t s _ hx hp
        | _ => exact hn hx hp
      split at h
      · cases h
      · rename_i l' s2 hl
        cases h
        exact nestedL_stable hP top l s1 (l', s2) hl h1
theorem nestedE_stable {P : Asked → Prop} (hP : Stable C P) (top : Bool) : ∀ (l : List (Yaml × Yaml)) (s : Asked) (r : List (Yaml × Yaml) × Asked), nestedE C top l s = .ok r →
    P s → P r.2
  | [], s, r, h, hp => by cases h; exact hp
  | (k, v) :: l, s, r, h, hp => by
    rw [nestedE] at h
    split at h
    · cases h
    · rename_i e' s1 he
      have h1 : P s1 := by
        have hn := nested_stable hP false v
        unfold entry at he
        cases hk : keyName top k with
        | some t =>
          rw [hk] at he
          simp only at he
          split at he
          · cases he
          · rename_i t' s2 ht
            split at he
            · cases he
            · rename_i v' s3 hv
              cases he
              exact hn _ _ hv (toCamelCase_stable hP t s _ ht hp)
        | none =>
          rw [hk] at he
          simp only at he
          split at he
          · cases he
          · rename_i v' s2 hv
            cases he
            cases v with
            | str t => exact leaf_stable hP top t s _ hv hp
            | _ => exact hn _ _ hv hp
      split at h
      · cases h
      · rename_i l' s2 hl
        cases h
        exact nestedE_stable hP top l s1 (l', s2) hl h1
end

/-! ### the whole document -/

/-- Every text in lower case. Specification. -/
def lowered (l : List Yaml) : List Yaml := l.map (fun x => match x with
  | .str t => .str (lower t)
  | x => x)

theorem lowerAll_ok {l l' : List Yaml} (h : lowerAll l = .ok l') : l' = lowered l := by
  induction l generalizing l' with
  | nil => cases h; rfl
  | cons x l ih =>
    cases x <;> try (cases h; done)
    rename_i t
    rw [lowerAll] at h
    split at h
    · cases h
    · rename_i l1 h1
      cases h
      rw [ih h1]
      rfl

theorem isKey_iff {k : Text} {y : Yaml} : isKey k y = true ↔ y = .str k := by
  cases y <;> simp [isKey]

theorem get_cons (y : Yaml × Yaml) (l : Entries) (k : Text) : Yaml.get (y :: l) k = if isKey k y.1 then some y.2 else Yaml.get l k := by
  unfold Yaml.get
  rw [List.find?_cons]
  cases isKey k y.1 <;> rfl

theorem get_append (l : Entries) (y : Yaml × Yaml) (k : Text) : Yaml.get (l ++ [y]) k = (Yaml.get l k).or (if isKey k y.1 then some y.2 else none) := by
  induction l with
  | nil => rw [List.nil_append, get_cons]; rfl
  | cons x l ih =>
    rw [List.cons_append, get_cons, get_cons, ih]
    split <;> rfl

theorem get_replace (l : Entries) (k k' : Text) (v : Yaml) : Yaml.get (l.map (fun x => if isKey k x.1 then (x.1, v) else x)) k' = (Yaml.get l k').map (fun u => if k' = k then v else u) := by
  induction l with
  | nil => rfl
  | cons x l ih =>
    rw [List.map_cons, get_cons, get_cons, ih]
    by_cases hx : isKey k x.1 = true
    · rw [if_pos hx]
      simp only
      by_cases hk : isKey k' x.1 = true
      · rw [if_pos hk, if_pos hk]
        have h1 := isKey_iff.1 hx
        have h2 := isKey_iff.1 hk
        rw [h1] at h2
        injection h2 with h2
        simp [h2]
      · rw [if_neg hk, if_neg hk]
    · rw [if_neg hx]
      by_cases hk : isKey k' x.1 = true
      · rw [if_pos hk, if_pos hk]
        have : k' ≠ k := fun h => hx (by rw [← h]; exact hk)
        simp [this]
      · rw [if_neg hk, if_neg hk]

theorem get_any (l : Entries) (k : Text) : l.any (fun x => isKey k x.1) = (Yaml.get l k).isSome := by
  induction l with
  | nil => rfl
  | cons x l ih =>
    rw [List.any_cons, get_cons, ih]
    cases isKey k x.1 <;> rfl

theorem get_put (l : Entries) (k k' : Text) (v : Yaml) : Yaml.get (put l (.str k, v)) k' = if k' = k then some v else Yaml.get l k' := by
  unfold put
  simp only [get_any]
  split
  · rename_i h
    rw [get_replace]
    by_cases hk : k' = k
    · subst hk
      obtain ⟨u, hu⟩ := Option.isSome_iff_exists.1 h
      simp [hu]
    · simp [hk]
  · rename_i h
    rw [get_append]
    by_cases hk : k' = k
    · subst hk
      rw [Option.not_isSome_iff_eq_none] at h
      simp [h, isKey]
    · have : isKey k' (.str k) = false := by
        simp only [isKey, beq_eq_false_iff_ne]
        exact fun h => hk h.symm
      simp [this, hk]

/-- **C77.** A conversion that succeeds changes three entries of the document, and only these: the namespace and the requirements are written in lower case, and in the ontology every
entity name is replaced by its new name, wherever it occurs, and nothing else is changed. The new name of an entity is the one that the superclasses and the answers of the
user demand (`newName`), so it is the same everywhere. -/
theorem convert_spec (answers : Nat → Bool) (limit : Nat) (doc doc' : Entries) (s : Asked) (h : convert answers limit doc = .ok (doc', s)) :
    ∃ ns onto, Yaml.get doc nsKey = some (.str ns) ∧ Yaml.get doc ontoKey = some (.dict onto) ∧
      Yaml.get doc' nsKey = some (.str (lower ns)) ∧
      (Yaml.get doc reqKey = none ∧ Yaml.get doc' reqKey = none ∨ ∃ l, Yaml.get doc reqKey = some (.list l) ∧ Yaml.get doc' reqKey = some (.list (lowered l))) ∧
      (∀ ans, Agrees ans s → Yaml.get doc' ontoKey = some (rename (newName (lower ns) onto ans) true (.dict onto))) ∧
      (∀ k, k ≠ nsKey → k ≠ reqKey → k ≠ ontoKey → Yaml.get doc' k = Yaml.get doc k) := by
  unfold convert at h
  split at h
  · cases h
  · rename_i C hC
    unfold init at hC
    split at hC
    · rename_i o ns ho hns
      cases hC
      have d1 : nsKey ≠ reqKey := by decide
      have d2 : nsKey ≠ ontoKey := by decide
      have d3 : reqKey ≠ ontoKey := by decide
      refine ⟨ns, o, hns, ho, ?_⟩
      split at h
      · cases h
      · rename_i doc1 hd
        split at h
        · cases h
        · rename_i o' s' hn
          cases h
          have hspec := nested_spec true _ _ _ hn
          have honto : ∀ ans, Agrees ans s → Yaml.get (put doc1 (.str ontoKey, o')) ontoKey = some (rename (newName (lower ns) o ans) true (.dict o)) := by
            intro ans ha
            rw [get_put, if_pos rfl]
            exact congrArg some (hspec.2 ans ha)
          split at hd
          · rename_i hreq
            cases hd
            refine ⟨?_, Or.inl ⟨hreq, ?_⟩, honto, ?_⟩
            · rw [get_put, if_neg d2, get_put, if_pos rfl]
            · rw [get_put, if_neg d3, get_put, if_neg d1.symm, hreq]
            · intro k h1 h2 h3
              rw [get_put, if_neg h3, get_put, if_neg h1]
          · rename_i l hreq
            split at hd
            · cases hd
            · rename_i l' hl
              cases hd
              refine ⟨?_, Or.inr ⟨l, hreq, ?_⟩, honto, ?_⟩
              · rw [get_put, if_neg d2, get_put, if_neg d1, get_put, if_pos rfl]
              · rw [get_put, if_neg d3, get_put, if_pos rfl, lowerAll_ok hl]
              · intro k h1 h2 h3
                rw [get_put, if_neg h3, get_put, if_neg h2, get_put, if_neg h1]
          · cases hd
    · cases hC
    · cases hC
    · cases hC

/-- **C77.** The user is asked only about entities of other namespaces, at most once about each, and his n-th answer is used for the n-th question. -/
theorem asked_once (answers : Nat → Bool) (limit : Nat) (doc doc' : Entries) (s : Asked) (h : convert answers limit doc = .ok (doc', s)) :
    (s.map (·.1)).Nodup ∧ s.map (·.2) = (List.range s.length).map answers ∧ ∃ ns, Yaml.get doc nsKey = some (.str ns) ∧ ∀ e ∈ s, Foreign (lower ns) e.1 := by
  unfold convert at h
  split at h
  · cases h
  · rename_i C hC
    unfold init at hC
    split at hC
    · rename_i o ns ho hns
      cases hC
      split at h
      · cases h
      · split at h
        · cases h
        · rename_i o' s' hn
          cases h
          have := nested_stable (P := fun s => (s.map (·.1)).Nodup ∧ s.map (·.2) = (List.range s.length).map answers ∧ ∀ e ∈ s, Foreign (lower ns) e.1) (C := ⟨lower ns, o, answers, limit⟩)
            (by
              intro w s hf ⟨p1, p2, p3⟩
              unfold ask
              split
              · exact ⟨p1, p2, p3⟩
              · rename_i hr
                refine ⟨?_, ?_, ?_⟩
                · rw [List.map_append]
                  refine List.nodup_append.2 ⟨p1, by simp, ?_⟩
                  intro a ha b hb hab
                  obtain ⟨e, he, rfl⟩ := List.mem_map.1 ha
                  simp only [List.map_cons, List.map_nil, List.mem_cons, List.not_mem_nil, or_false] at hb
                  exact recorded_none hr e he (by rw [hab, hb])
                · simp only [List.map_append, List.length_append, List.length_cons, List.length_nil, List.map_cons, List.map_nil]
                  rw [p2, List.range_succ, List.map_append]
                  rfl
                · intro e he
                  rcases List.mem_append.1 he with he | he
                  · exact p3 e he
                  · simp only [List.mem_cons, List.not_mem_nil, or_false] at he
                    rw [he]
                    exact hf) true _ _ _ hn ⟨List.nodup_nil, rfl, fun e he => by cases he⟩
          exact ⟨this.1, this.2.1, ns, hns, this.2.2⟩
    · cases hC
    · cases hC
    · cases hC

end Osp.Camel
