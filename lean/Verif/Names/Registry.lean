import Verif.Names.Resolve
/-!
# C96: the namespaces of the registry

`osp/core/ontology/namespace_registry.py` (reg:), `osp/core/namespaces.py` (top:), `osp/core/__init__.py` (core:).
-/
namespace Osp.Names

/-! ### model -/

/-- The keys of a Python dictionary: every key at the place where it was first set. Python itself; models nothing in /repo. -/
def firsts : List Text → List Text
  | [] => []
  | x :: l => x :: (firsts l).filter (· ≠ x)

/-- The keys of `_namespaces`, reg:106-113 (`table` has the latest entry first). -/
def Reg.keys (R : Reg) : List Text := firsts (R.table.reverse.map (·.1))

/-- `iter(registry)`, reg:27-35. -/
def Reg.iter (R : Reg) : Except PyErr (List Ns) := (R.keys.filter (fun n => !n.isEmpty)).mapM R.get

/-- `registry.get(name, fallback)`, reg:74-87. -/
def Reg.getOr {α : Type} (R : Reg) (name : Text) (fallback : α) : Except PyErr (Sum Ns α) :=
  match R.get name with
  | .ok N => .ok (.inl N)
  | .error .keyError => .ok (.inr fallback)
  | .error e => .error e

/-- The attributes of the registry itself (those with two leading underscores, which every Python object has, are not listed), reg:15-289. -/
def regOwn : List Text := ["_graph".toList, "_namespaces".toList, "get".toList, "_get".toList, "update_namespaces".toList, "namespace_from_iri".toList, "from_iri".toList,
  "_get_namespace_name_and_iri".toList, "_get_reference_by_label".toList, "_get_entity_name".toList, "clear".toList, "store".toList, "load".toList, "_load_cuba".toList]

/-- What is defined in the module osp.core.namespaces, top:1-72. -/
def topOwn : List Text := ["_os".toList, "_logging".toList, "rdflib".toList, "_NamespaceRegistry".toList, "_logger".toList, "_osp_ontologies_dir".toList, "_namespace_registry".toList,
  "_path".toList, "get_entity".toList, "from_iri".toList]

/-- What an attribute access gives: something defined in Python, or a namespace. Modelling device. -/
inductive Access where
  | own (name : Text)
  | ns (N : Ns)
  deriving DecidableEq

/-- `registry.name`: Python looks for an attribute first, then calls `__getattr__`, reg:37-49. -/
def Reg.attr (R : Reg) (name : Text) : Except PyErr Access :=
  if name ∈ regOwn then .ok (.own name)
  else match R.get name with
    | .ok N => .ok (.ns N)
    | .error .keyError => .error .attributeError
    | .error e => .error e

/-- `osp.core.namespaces.name`, top:63-72. -/
def Reg.top (R : Reg) (name : Text) : Except PyErr Access := if name ∈ topOwn then .ok (.own name) else R.attr name

/-- `osp.core.name`, core:40-44; `own` is what is defined in osp.core, with its submodules. -/
def Reg.core (R : Reg) (own : List Text) (name : Text) : Except PyErr Access := if name ∈ own then .ok (.own name) else R.top name

/-! ### specification -/

/-- The namespace with this prefix, in any spelling: the one bound last. Specification. -/
def BoundAs (R : Reg) (name iri : Text) : Prop :=
  ∃ a b p, R.binds = a ++ (p, iri) :: b ∧ p.map Char.toLower = name.map Char.toLower ∧ ∀ x ∈ b, x.1.map Char.toLower ≠ name.map Char.toLower

/-! ### proofs -/

theorem toLower_toLower (c : Char) : c.toLower.toLower = c.toLower := by
  by_cases h : c.isUpper = true
  · have : ∀ n, n < 91 → 65 ≤ n → (Char.ofNat n).toLower.toLower = (Char.ofNat n).toLower := by decide
    unfold Char.isUpper at h
    simp only [ge_iff_le, decide_eq_true_eq] at h
    have h1 : 65 ≤ c.toNat := h.1
    have h2 : c.toNat ≤ 90 := h.2
    have := this c.toNat (by omega) h1
    rwa [Char.ofNat_toNat] at this
  · have : c.toLower = c := by
      unfold Char.toLower
      unfold Char.isUpper at h
      simp only [ge_iff_le, decide_eq_true_eq] at h
      split
      · rename_i hk; exact absurd hk h
      · rfl
    rw [this, this]

theorem lower_twice (t : Text) : lower (lower t) = lower t := by
  unfold lower
  rw [List.map_map]
  exact List.map_congr_left fun c _ => toLower_toLower c

/-- Only a KeyError is possible. -/
theorem get_cases (R : Reg) (n : Text) : (∃ N, R.get n = .ok N ∧ N.name = lower n) ∨ R.get n = .error .keyError := by
  unfold Reg.get
  cases R.find (lower n) with
  | none => exact Or.inr rfl
  | some iri => exact Or.inl ⟨_, rfl, rfl⟩

/-- **C96.** All ways to ask for a namespace agree: subscript, attribute of the registry, of osp.core.namespaces and of osp.core (for names that are not defined there), `get` with a fallback,
and `in`. If there is none: KeyError, AttributeError, the fallback, False. -/
theorem access_agrees {α : Type} (R : Reg) (n : Text) (fb : α) (own : List Text) (h1 : n ∉ regOwn) (h2 : n ∉ topOwn) (h3 : n ∉ own) :
    (∃ N, R.get n = .ok N ∧ R.attr n = .ok (.ns N) ∧ R.top n = .ok (.ns N) ∧ R.core own n = .ok (.ns N) ∧ R.getOr n fb = .ok (.inl N) ∧ R.has n = true) ∨
    (R.get n = .error .keyError ∧ R.attr n = .error .attributeError ∧ R.top n = .error .attributeError ∧ R.core own n = .error .attributeError ∧ R.getOr n fb = .ok (.inr fb) ∧
      R.has n = false) := by
  have ht : R.top n = R.attr n := by unfold Reg.top; rw [if_neg h2]
  have hc : R.core own n = R.attr n := by unfold Reg.core; rw [if_neg h3, ht]
  rw [hc, ht]
  unfold Reg.attr Reg.getOr Reg.has
  rw [if_neg h1]
  unfold Reg.get
  cases R.find (lower n) with
  | none => exact Or.inr ⟨rfl, rfl, rfl, rfl, rfl, rfl⟩
  | some iri => exact Or.inl ⟨_, rfl, rfl, rfl, rfl, rfl, rfl⟩

/-- **C96.** The spelling does not matter: names that differ only in upper and lower case are answered alike. -/
theorem any_spelling {α : Type} (R : Reg) (n m : Text) (fb : α) (h : n.map Char.toLower = m.map Char.toLower) : R.get n = R.get m ∧ R.has n = R.has m ∧ R.getOr n fb = R.getOr m fb ∧
    (n ∉ regOwn → m ∉ regOwn → R.attr n = R.attr m) := by
  have hl : lower n = lower m := h
  have hg : R.get n = R.get m := by unfold Reg.get; rw [hl]
  refine ⟨hg, by unfold Reg.has; rw [hl], by unfold Reg.getOr; rw [hg], fun h1 h2 => ?_⟩
  unfold Reg.attr
  rw [if_neg h1, if_neg h2, hg]

theorem find_reverse {l : List (Text × Text)} {n iri : Text} : (l.reverse.find? (fun b => b.1 = n)).map (·.2) = some iri ↔ ∃ a b, l = a ++ (n, iri) :: b ∧ ∀ x ∈ b, x.1 ≠ n := by
  rw [Option.map_eq_some_iff]
  constructor
  · rintro ⟨e, he, rfl⟩
    obtain ⟨h1, as, bs, h2, h3⟩ := List.find?_eq_some_iff_append.1 he
    have h1 : e.1 = n := of_decide_eq_true h1
    refine ⟨bs.reverse, as.reverse, ?_, fun x hx => ?_⟩
    · have := congrArg List.reverse h2
      rw [List.reverse_reverse] at this
      rw [this, List.reverse_append, List.reverse_cons, List.append_assoc, ← h1]
      rfl
    · simpa using h3 x (List.mem_reverse.1 hx)
  · rintro ⟨a, b, rfl, hb⟩
    refine ⟨(n, iri), List.find?_eq_some_iff_append.2 ⟨by simp, b.reverse, a.reverse, by simp, fun x hx => ?_⟩, rfl⟩
    simpa using hb x (List.mem_reverse.1 hx)

/-- **C96.** After the namespaces of the graph were read, exactly the bound ones are found: the one bound last under this name, in whatever spelling. -/
theorem found_iff (R : Reg) (n : Text) (N : Ns) : R.update.get n = .ok N ↔ ∃ iri, BoundAs R n iri ∧ N = ⟨n.map Char.toLower, iri, decide (iri ∈ R.byLabel)⟩ := by
  have hf : ∀ iri, R.update.find (lower n) = some iri ↔ BoundAs R n iri := by
    intro iri
    unfold Reg.find Reg.update
    dsimp only
    rw [find_reverse]
    constructor
    · rintro ⟨a, b, hab, hb⟩
      obtain ⟨a', r, hr, ha', hr'⟩ := List.map_eq_append_iff.1 hab
      obtain ⟨x, b', hxb, hx, hb'⟩ := List.map_eq_cons_iff.1 hr'
      refine ⟨a', b', x.1, ?_, ?_, ?_⟩
      · rw [hr, hxb]
        rw [← (Prod.mk.inj hx).2]
      · exact (Prod.mk.inj hx).1
      · intro y hy
        exact hb (lower y.1, y.2) (by rw [← hb']; exact List.mem_map.2 ⟨y, hy, rfl⟩)
    · rintro ⟨a, b, p, hab, hp, hb⟩
      refine ⟨a.map (fun b => (lower b.1, b.2)), b.map (fun b => (lower b.1, b.2)), ?_, ?_⟩
      · rw [hab, List.map_append, List.map_cons]
        rw [show lower p = lower n from hp]
      · intro x hx
        obtain ⟨y, hy, rfl⟩ := List.mem_map.1 hx
        exact hb y hy
  unfold Reg.get
  cases hc : R.update.find (lower n) with
  | none =>
    constructor
    · intro h; cases h
    · rintro ⟨iri, hb, -⟩
      rw [(hf iri).2 hb] at hc
      cases hc
  | some iri =>
    constructor
    · intro h
      exact ⟨iri, (hf iri).1 hc, (Except.ok.inj h).symm⟩
    · rintro ⟨iri', hb, rfl⟩
      rw [(hf iri').2 hb] at hc
      cases hc
      rfl

theorem mem_firsts {x : Text} : ∀ {l : List Text}, x ∈ firsts l ↔ x ∈ l := by
  intro l
  induction l with
  | nil => exact Iff.rfl
  | cons y l ih =>
    rw [firsts, List.mem_cons, List.mem_cons, List.mem_filter, ih]
    by_cases h : x = y
    · simp [h]
    · simp [h]

theorem firsts_nodup (l : List Text) : (firsts l).Nodup := by
  induction l with
  | nil => exact List.nodup_nil
  | cons y l ih =>
    rw [firsts, List.nodup_cons]
    exact ⟨fun h => by simpa using (List.mem_filter.1 h).2, ih.filter _⟩

theorem mapM_ok {α β : Type} {f : α → Except PyErr β} : ∀ (l : List α), (∀ x ∈ l, ∃ y, f x = .ok y) → ∃ ys, l.mapM f = .ok ys ∧ l.map f = ys.map .ok := by
  intro l
  induction l with
  | nil => exact fun _ => ⟨[], rfl, rfl⟩
  | cons x l ih =>
    intro h
    obtain ⟨y, hy⟩ := h x List.mem_cons_self
    obtain ⟨ys, h1, h2⟩ := ih fun z hz => h z (List.mem_cons_of_mem _ hz)
    refine ⟨y :: ys, ?_, by rw [List.map_cons, List.map_cons, hy, h2]⟩
    rw [List.mapM_cons, hy, h1]
    rfl

/-- **C96.** Iterating gives every namespace with a non-empty name exactly once. -/
theorem iter_exact (R : Reg) : ∃ l, R.update.iter = .ok l ∧ (l.map Ns.name).Nodup ∧ ∀ N, N ∈ l ↔ ∃ n, n ≠ [] ∧ R.update.get n = .ok N := by
  have hkeys : ∀ n, n ∈ R.update.keys ↔ ∃ b ∈ R.binds, lower b.1 = n := by
    intro n
    unfold Reg.keys
    rw [mem_firsts]
    simp only [Reg.update, List.reverse_reverse, List.map_map, List.mem_map, Function.comp]
  have hlow : ∀ n ∈ R.update.keys, lower n = n := by
    intro n hn
    obtain ⟨b, -, rfl⟩ := (hkeys n).1 hn
    exact lower_twice _
  have hget : ∀ n ∈ R.update.keys.filter (fun n => !n.isEmpty), ∃ N, R.update.get n = .ok N := by
    intro n hn
    have hn := (List.mem_filter.1 hn).1
    have := (find_update (R := R.update) rfl n).2 ((hkeys n).1 hn)
    obtain ⟨iri, hi⟩ := Option.isSome_iff_exists.1 this
    unfold Reg.get
    rw [hlow n hn, hi]
    exact ⟨_, rfl⟩
  obtain ⟨l, h1, h2⟩ := mapM_ok _ hget
  refine ⟨l, h1, ?_, ?_⟩
  · have hn : l.map Ns.name = R.update.keys.filter (fun n => !n.isEmpty) := by
      have : ∀ (ks : List Text) (l : List Ns), (∀ n ∈ ks, lower n = n) → ks.map R.update.get = l.map .ok → l.map Ns.name = ks := by
        intro ks
        induction ks with
        | nil =>
          intro l _ h
          rw [List.map_nil, eq_comm, List.map_eq_nil_iff] at h
          rw [h]; rfl
        | cons n ks ih =>
          intro l hk h
          rw [List.map_cons, eq_comm] at h
          obtain ⟨N, l', rfl, hN, hl'⟩ := List.map_eq_cons_iff.1 h
          rw [List.map_cons, ih l' (fun x hx => hk x (List.mem_cons_of_mem _ hx)) hl'.symm]
          rcases get_cases R.update n with ⟨N', hN', hname⟩ | he
          · rw [hN'] at hN
            cases hN
            rw [hname, hk n List.mem_cons_self]
          · rw [he] at hN; cases hN
      exact this _ _ (fun n hn => hlow n (List.mem_filter.1 hn).1) h2
    rw [hn]
    exact (firsts_nodup _).filter _
  · intro N
    constructor
    · intro hN
      have : (Except.ok N : Except PyErr Ns) ∈ l.map .ok := List.mem_map.2 ⟨N, hN, rfl⟩
      rw [← h2] at this
      obtain ⟨n, hn, hnN⟩ := List.mem_map.1 this
      refine ⟨n, ?_, hnN⟩
      rintro rfl
      exact absurd (List.mem_filter.1 hn).2 (by simp)
    · rintro ⟨n, hn, hN⟩
      have hk : lower n ∈ R.update.keys := by
        rw [hkeys]
        refine (find_update (R := R.update) rfl (lower n)).1 ?_
        unfold Reg.get at hN
        cases hf : R.update.find (lower n) with
        | none => rw [hf] at hN; cases hN
        | some _ => rfl
      have hne : lower n ≠ [] := by
        unfold lower
        rwa [ne_eq, List.map_eq_nil_iff]
      have : R.update.get (lower n) ∈ (R.update.keys.filter (fun n => !n.isEmpty)).map R.update.get :=
        List.mem_map.2 ⟨lower n, List.mem_filter.2 ⟨hk, by cases hl : lower n with | nil => exact absurd hl hne | cons _ _ => rfl⟩, rfl⟩
      rw [(any_spelling R.update (lower n) n () (lower_twice n)).1, hN, h2] at this
      obtain ⟨N', hN', he⟩ := List.mem_map.1 this
      cases he
      exact hN'

/-- **C96.** An attribute that is defined in Python hides the namespace of this name; the subscript finds it. -/
theorem own_attribute_hides (R : Reg) (n : Text) : (n ∈ regOwn → R.attr n = .ok (.own n)) ∧ (n ∈ topOwn → R.top n = .ok (.own n)) ∧ (n ∈ regOwn → n ∉ topOwn → R.top n = .ok (.own n)) := by
  refine ⟨fun h => by unfold Reg.attr; rw [if_pos h], fun h => by unfold Reg.top; rw [if_pos h], fun h1 h2 => ?_⟩
  unfold Reg.top Reg.attr
  rw [if_neg h2, if_pos h1]

/-! ### examples -/

/-- Example: three namespaces, two of which differ only in the spelling of the prefix, one without prefix, and one called load. -/
def R1 : Reg := Reg.update ⟨[("City".toList, "http://a#".toList), ("xsd".toList, "http://x#".toList), ([], "http://e#".toList), ("CITY".toList, "http://b#".toList), ("load".toList, "http://l#".toList)], [], [], [],
  ["http://b#".toList]⟩

/-- Finding: of two namespaces whose prefixes differ only in upper and lower case, only the one bound last is found. Example of `found_iff` and `iter_exact`. -/
theorem same_prefix_shadowed : R1.get "city".toList = .ok ⟨"city".toList, "http://b#".toList, true⟩ ∧
    R1.iter.map (·.map (fun N => (N.name, N.iri))) = .ok [("city".toList, "http://b#".toList), ("xsd".toList, "http://x#".toList), ("load".toList, "http://l#".toList)] := by decide +kernel

/-- Finding: a namespace called load cannot be imported: osp.core.namespaces.load is the method that reads the installed ontologies. In capital letters it can. -/
theorem namespace_called_load : R1.top "load".toList = .ok (.own "load".toList) ∧ R1.top "LOAD".toList = .ok (.ns ⟨"load".toList, "http://l#".toList, false⟩) ∧
    R1.get "load".toList = .ok ⟨"load".toList, "http://l#".toList, false⟩ := by decide +kernel

/-- The namespace without prefix is found by the empty name, but not listed. -/
theorem empty_prefix : R1.get [] = .ok ⟨[], "http://e#".toList, false⟩ := by decide +kernel

/-- An unknown name. -/
example : R1.attr "town".toList = .error .attributeError ∧ R1.getOr "town".toList 7 = .ok (.inr 7) ∧ R1.has "Xsd".toList = true := by decide +kernel

end Osp.Names
