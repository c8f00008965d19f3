import Verif.Text
import Verif.Iri.Props
/-!
# Values sent over the network (C06)

`serializable` and `deserialize` in `osp/core/session/transport/transport_utils.py`. JSON values instead of JSON text: Python's `json` is taken to write and read JSON values
without loss.
-/
namespace Osp.Transport

/-- JSON values; `N` are the numbers. JSON; nothing in /repo. -/
inductive Json (N : Type) where
  | null
  | bool (b : Bool)
  | num (n : N)
  | str (t : Text)
  | list (l : List (Json N))
  | dict (kv : List (Text × Json N))

/-- Python values. `E`: ontology entities, `C`: CUDS objects, `other`: anything that is neither supported nor iterable. Uids are 128 bit numbers. -/
inductive Val (N E C : Type) where
  | none
  | bool (b : Bool)
  | num (n : N)
  | str (t : Text)
  | uuid (u : Nat)
  | entity (e : E)
  | cuds (c : C)
  | list (l : List (Val N E C))
  | dict (kv : List (Text × Val N E C))
  | other

/-- The surroundings: names and lookup of ontology entities (`_namespace_registry`), the JSON-LD form of CUDS objects (rdflib), numbers as uids. Modelling device; transport_utils.py 185-259. -/
structure Env (N E C : Type) where
  ns : E → Text
  name : E → Text
  lookup : Text → Text → Except PyErr E
  ld : C → List (Json N)
  readLd : List (Json N) → Except PyErr C
  numUuid : N → Except PyErr Nat

variable {N E C : Type}

/-- `str(entity)`, ontology/entity.py:36-38. -/
def entityStr (v : Env N E C) (e : E) : Text := v.ns e ++ '.' :: v.name e

/-- `get_entity`, namespaces.py:28-38. -/
def getEntity (v : Env N E C) : Json N → Except PyErr E
  | .str t => match splitOn '.' t with
    | [a, b] => v.lookup a b
    | _ => .error .valueError
  | _ => .error .attributeError

/-- `convert_to(x, "UUID")`, datatypes.py:12-30 and :52-75. -/
def toUuid (v : Env N E C) : Json N → Except PyErr Nat
  | .str t => match Iri.parseUuid t with
    | some u => .ok u
    | none => .error .valueError
  | .num n => v.numUuid n
  | .bool b => .ok (if b then 1 else 0)
  | _ => .error .valueError

mutual
/-- `serializable`, transport_utils.py:226-259. -/
def serializable (v : Env N E C) : Val N E C → Except PyErr (Json N)
  | .none => .ok .null
  | .bool b => .ok (.bool b)
  | .num n => .ok (.num n)
  | .str t => .ok (.str t)
  | .uuid u => .ok (.dict [("UUID".toList, .str (Iri.uuidStr u))])
  | .entity e => .ok (.dict [("ENTITY".toList, .str (entityStr v e))])
  | .cuds c => .ok (.list (v.ld c))
  | .dict kv => match serKV v kv with
    | .error e => .error e
    | .ok kv => .ok (.dict kv)
  | .list l => match serL v l with
    | .error e => .error e
    | .ok l => .ok (.list l)
  | .other => .error .valueError
/-- transport_utils.py 226-259, lists. -/
def serL (v : Env N E C) : List (Val N E C) → Except PyErr (List (Json N))
  | [] => .ok []
  | x :: xs => match serializable v x with
    | .error e => .error e
    | .ok x => match serL v xs with
      | .error e => .error e
      | .ok xs => .ok (x :: xs)
/-- transport_utils.py 226-259, dictionaries. -/
def serKV (v : Env N E C) : List (Text × Val N E C) → Except PyErr (List (Text × Json N))
  | [] => .ok []
  | (k, x) :: xs => match serializable v x with
    | .error e => .error e
    | .ok x => match serKV v xs with
      | .error e => .error e
      | .ok xs => .ok ((k, x) :: xs)
end

/-- A JSON-LD document: a list whose first entry is a dictionary with the key "@id", transport_utils.py:207-209. -/
def isLd : List (Json N) → Bool
  | .dict kv :: _ => kv.any (fun p => p.1 == "@id".toList)
  | _ => false

/-- The keys of a dictionary are exactly this one. Python itself; models nothing in /repo. -/
def onlyKey (k : Text) (kv : List (Text × Json N)) : Bool := !kv.isEmpty && kv.all (fun p => p.1 == k)

mutual
/-- `deserialize`, transport_utils.py:185-223. -/
def deserialize (v : Env N E C) : Json N → Except PyErr (Val N E C)
  | .null => .ok .none
  | .bool b => .ok (.bool b)
  | .num n => .ok (.num n)
  | .str t => .ok (.str t)
  | .list l => if isLd l then match v.readLd l with
      | .error e => .error e
      | .ok c => .ok (.cuds c)
    else match deL v l with
      | .error e => .error e
      | .ok l => .ok (.list l)
  | .dict kv =>
    if onlyKey "UUID".toList kv then match toUuid v (((kv.find? (fun p => p.1 == "UUID".toList)).map Prod.snd).getD .null) with
      | .error e => .error e
      | .ok u => .ok (.uuid u)
    else if onlyKey "ENTITY".toList kv then match getEntity v (((kv.find? (fun p => p.1 == "ENTITY".toList)).map Prod.snd).getD .null) with
      | .error e => .error e
      | .ok e => .ok (.entity e)
    else match deKV v kv with
      | .error e => .error e
      | .ok kv => .ok (.dict kv)
/-- transport_utils.py 185-223, lists. -/
def deL (v : Env N E C) : List (Json N) → Except PyErr (List (Val N E C))
  | [] => .ok []
  | x :: xs => match deserialize v x with
    | .error e => .error e
    | .ok x => match deL v xs with
      | .error e => .error e
      | .ok xs => .ok (x :: xs)
/-- transport_utils.py 185-223, dictionaries. -/
def deKV (v : Env N E C) : List (Text × Json N) → Except PyErr (List (Text × Val N E C))
  | [] => .ok []
  | (k, x) :: xs => match deserialize v x with
    | .error e => .error e
    | .ok x => match deKV v xs with
      | .error e => .error e
      | .ok xs => .ok ((k, x) :: xs)
end

/-! ### specification -/

/-- Shapes of dictionaries and lists that mean something else when they are received. Specification; nothing in /repo. -/
def Reserved : Val N E C → Prop
  | .dict kv => kv ≠ [] ∧ ((∀ p ∈ kv, p.1 = "UUID".toList) ∨ (∀ p ∈ kv, p.1 = "ENTITY".toList))
  | .list (.dict kv :: _) => ∃ p ∈ kv, p.1 = "@id".toList
  | _ => False

/-- `y` occurs inside `x` (or is `x`). Specification; nothing in /repo. -/
inductive Inside : Val N E C → Val N E C → Prop
  | refl (x) : Inside x x
  | list {x y : Val N E C} {l} : y ∈ l → Inside x y → Inside x (.list l)
  | dict {x y : Val N E C} {kv k} : (k, y) ∈ kv → Inside x y → Inside x (.dict kv)

/-- What is assumed about the surroundings for the objects in a value: a uid is a 128 bit number; the name of an entity has no dot and finds the entity; the JSON-LD
document of a CUDS object looks like one and is read back. -/
def Good (v : Env N E C) : Val N E C → Prop
  | .uuid u => u < 2 ^ 128
  | .entity e => '.' ∉ v.ns e ∧ '.' ∉ v.name e ∧ v.lookup (v.ns e) (v.name e) = .ok e
  | .cuds c => isLd (v.ld c) = true ∧ v.readLd (v.ld c) = .ok c
  | .other => False
  | _ => True

/-! ### proofs -/

theorem serKV_keys (v : Env N E C) : ∀ {kv kv'}, serKV v kv = .ok kv' → kv'.map Prod.fst = kv.map Prod.fst := by
  intro kv
  induction kv with
  | nil => intro kv' h; rw [serKV] at h; injection h with h; subst h; rfl
  | cons p kv ih =>
    intro kv' h
    obtain ⟨k, x⟩ := p
    rw [serKV] at h
    split at h
    · cases h
    · split at h
      · cases h
      · rename_i xs hxs
        injection h with h
        subst h
        simp [ih hxs]

theorem isLd_ser (v : Env N E C) {l : List (Val N E C)} {l'} (h : serL v l = .ok l') (hr : ¬ Reserved (.list l)) : isLd l' = false := by
  cases l with
  | nil => rw [serL] at h; injection h with h; subst h; rfl
  | cons x xs =>
    rw [serL] at h
    split at h
    · cases h
    · rename_i j hj
      split at h
      · cases h
      · rename_i js _
        injection h with h
        subst h
        cases x with
        | dict kv =>
          rw [serializable] at hj
          split at hj
          · cases hj
          · rename_i kv' hkv
            injection hj with hj
            subst hj
            cases hb : isLd (Json.dict kv' :: js) with
            | false => rfl
            | true =>
              exfalso
              apply hr
              simp only [isLd, List.any_eq_true, beq_iff_eq] at hb
              obtain ⟨p, hp, hk⟩ := hb
              have hm : "@id".toList ∈ kv'.map Prod.fst := List.mem_map.2 ⟨p, hp, hk⟩
              rw [serKV_keys v hkv] at hm
              obtain ⟨q, hq, hqk⟩ := List.mem_map.1 hm
              exact ⟨q, hq, hqk⟩
        | none => rw [serializable] at hj; injection hj with hj; subst hj; rfl
        | bool => rw [serializable] at hj; injection hj with hj; subst hj; rfl
        | num => rw [serializable] at hj; injection hj with hj; subst hj; rfl
        | str => rw [serializable] at hj; injection hj with hj; subst hj; rfl
        | uuid u =>
          rw [serializable] at hj; injection hj with hj; subst hj
          show (("UUID".toList == "@id".toList) || false) = false
          decide
        | entity e =>
          rw [serializable] at hj; injection hj with hj; subst hj
          show (("ENTITY".toList == "@id".toList) || false) = false
          decide
        | cuds => rw [serializable] at hj; injection hj with hj; subst hj; rfl
        | list m =>
          rw [serializable] at hj
          split at hj
          · cases hj
          · injection hj with hj; subst hj; rfl
        | other => rw [serializable] at hj; cases hj

theorem onlyKey_iff (k : Text) (kv : List (Text × Json N)) : onlyKey k kv = true ↔ kv ≠ [] ∧ ∀ p ∈ kv, p.1 = k := by
  cases kv with
  | nil => simp [onlyKey]
  | cons p kv => simp [onlyKey]

theorem onlyKey_ser (v : Env N E C) {kv : List (Text × Val N E C)} {kv'} (h : serKV v kv = .ok kv') (k : Text) : onlyKey k kv' = true ↔ kv ≠ [] ∧ ∀ p ∈ kv, p.1 = k := by
  have hk := serKV_keys v h
  rw [onlyKey_iff]
  have a : kv' ≠ [] ↔ kv ≠ [] := by
    have e : kv' = [] ↔ kv = [] := by
      rw [← List.map_eq_nil_iff (f := Prod.fst) (l := kv'), hk, List.map_eq_nil_iff]
    exact not_congr e
  have b : (∀ p ∈ kv', p.1 = k) ↔ ∀ p ∈ kv, p.1 = k := by
    rw [← List.forall_mem_map (f := Prod.fst) (l := kv') (P := fun x => x = k), ← List.forall_mem_map (f := Prod.fst) (l := kv) (P := fun x => x = k), hk]
  rw [a, b]

mutual
theorem roundtrip_val (v : Env N E C) (x : Val N E C) (h : ∀ y, Inside y x → Good v y ∧ ¬ Reserved y) : ∃ j, serializable v x = .ok j ∧ deserialize v j = .ok x := by
  match x with
  | .none => exact ⟨_, rfl, rfl⟩
  | .bool b => exact ⟨_, rfl, rfl⟩
  | .num n => exact ⟨_, rfl, rfl⟩
  | .str t => exact ⟨_, rfl, rfl⟩
  | .uuid u =>
    refine ⟨_, rfl, ?_⟩
    have : Iri.parseUuid (Iri.uuidStr u) = some u := Iri.parse_uuidStr u (h _ (.refl _)).1
    have k1 : onlyKey "UUID".toList [("UUID".toList, (Json.str (Iri.uuidStr u) : Json N))] = true := by simp [onlyKey]
    rw [deserialize, if_pos k1]
    simp [List.find?, toUuid, this]
  | .entity e =>
    refine ⟨_, rfl, ?_⟩
    obtain ⟨h1, h2, h3⟩ := (h _ (.refl _)).1
    have hs : splitOn '.' (entityStr v e) = [v.ns e, v.name e] := by
      unfold entityStr
      rw [splitOn_append '.' _ _ h1, splitOn_none '.' _ h2]
    have k1 : onlyKey "UUID".toList [("ENTITY".toList, (Json.str (entityStr v e) : Json N))] = false := by simp [onlyKey]
    have k2 : onlyKey "ENTITY".toList [("ENTITY".toList, (Json.str (entityStr v e) : Json N))] = true := by simp [onlyKey]
    rw [deserialize, if_neg (by rw [k1]; decide), if_pos k2]
    simp [List.find?, getEntity, hs, h3]
  | .cuds c =>
    refine ⟨_, rfl, ?_⟩
    obtain ⟨h1, h2⟩ := (h _ (.refl _)).1
    rw [deserialize, if_pos h1, h2]
  | .list l =>
    obtain ⟨js, h1, h2⟩ := roundtrip_list v l (fun y hy z hz => h z (.list hy hz))
    refine ⟨.list js, by rw [serializable, h1], ?_⟩
    rw [deserialize, if_neg (by rw [isLd_ser v h1 (h _ (.refl _)).2]; decide), h2]
  | .dict kv =>
    obtain ⟨js, h1, h2⟩ := roundtrip_dict v kv (fun k y hy z hz => h z (.dict hy hz))
    have hr := (h _ (.refl _)).2
    refine ⟨.dict js, by rw [serializable, h1], ?_⟩
    have n1 : ¬ onlyKey "UUID".toList js = true := fun hk => hr ⟨((onlyKey_ser v h1 _).1 hk).1, Or.inl ((onlyKey_ser v h1 _).1 hk).2⟩
    have n2 : ¬ onlyKey "ENTITY".toList js = true := fun hk => hr ⟨((onlyKey_ser v h1 _).1 hk).1, Or.inr ((onlyKey_ser v h1 _).1 hk).2⟩
    rw [deserialize, if_neg n1, if_neg n2, h2]
  | .other => exact absurd (h _ (.refl _)).1 id
theorem roundtrip_list (v : Env N E C) (l : List (Val N E C)) (h : ∀ x ∈ l, ∀ y, Inside y x → Good v y ∧ ¬ Reserved y) : ∃ j, serL v l = .ok j ∧ deL v j = .ok l := by
  match l with
  | [] => exact ⟨[], rfl, rfl⟩
  | x :: xs =>
    obtain ⟨j, h1, h2⟩ := roundtrip_val v x (h x List.mem_cons_self)
    obtain ⟨js, h3, h4⟩ := roundtrip_list v xs (fun y hy => h y (List.mem_cons_of_mem _ hy))
    exact ⟨j :: js, by rw [serL, h1, h3], by rw [deL, h2, h4]⟩
theorem roundtrip_dict (v : Env N E C) (kv : List (Text × Val N E C)) (h : ∀ k x, (k, x) ∈ kv → ∀ y, Inside y x → Good v y ∧ ¬ Reserved y) :
    ∃ j, serKV v kv = .ok j ∧ deKV v j = .ok kv := by
  match kv with
  | [] => exact ⟨[], rfl, rfl⟩
  | (k, x) :: xs =>
    obtain ⟨j, h1, h2⟩ := roundtrip_val v x (h k x List.mem_cons_self)
    obtain ⟨js, h3, h4⟩ := roundtrip_dict v xs (fun k' y hy => h k' y (List.mem_cons_of_mem _ hy))
    exact ⟨(k, j) :: js, by rw [serKV, h1, h3], by rw [deKV, h2, h4]⟩
end

/-- **C06.** Every value in which no reserved shape occurs is received as it was sent. -/
theorem value_roundtrip (v : Env N E C) (x : Val N E C) (h : ∀ y, Inside y x → Good v y ∧ ¬ Reserved y) :
    ∃ j, serializable v x = .ok j ∧ deserialize v j = .ok x := roundtrip_val v x h

/-- **C06.** A value with a reserved shape is never received as it was sent. -/
theorem reserved_changed (v : Env N E C) (x : Val N E C) (h : Reserved x) (j : Json N) (hj : serializable v x = .ok j) : deserialize v j ≠ .ok x := by
  cases x with
  | dict kv =>
    rw [serializable] at hj
    split at hj
    · cases hj
    · rename_i kv' hkv
      injection hj with hj
      subst hj
      rw [deserialize]
      split
      · split
        · intro e; cases e
        · intro e; injection e with e; cases e
      · rename_i n1
        split
        · split
          · intro e; cases e
          · intro e; injection e with e; cases e
        · rename_i n2
          rcases h.2 with h' | h'
          · exact absurd ((onlyKey_ser v hkv _).2 ⟨h.1, h'⟩) n1
          · exact absurd ((onlyKey_ser v hkv _).2 ⟨h.1, h'⟩) n2
  | list l =>
    cases l with
    | nil => exact absurd h id
    | cons y ys =>
      cases y with
      | dict kv =>
        obtain ⟨p, hp, hk⟩ := h
        rw [serializable] at hj
        split at hj
        · cases hj
        · rename_i l' hl
          injection hj with hj
          subst hj
          rw [serL] at hl
          split at hl
          · cases hl
          · rename_i j' hj'
            split at hl
            · cases hl
            · rename_i js _
              injection hl with hl
              subst hl
              rw [serializable] at hj'
              split at hj'
              · cases hj'
              · rename_i kv' hkv
                injection hj' with hj'
                subst hj'
                have hld : isLd (Json.dict kv' :: js) = true := by
                  have hm : "@id".toList ∈ kv'.map Prod.fst := by
                    rw [serKV_keys v hkv]
                    exact List.mem_map.2 ⟨p, hp, hk⟩
                  obtain ⟨q, hq, hqk⟩ := List.mem_map.1 hm
                  exact List.any_eq_true.2 ⟨q, hq, by simpa using hqk⟩
                rw [deserialize, if_pos hld]
                split
                · intro e; cases e
                · intro e; injection e with e; cases e
      | _ => exact absurd h id
  | _ => exact absurd h id

/-- Finding: an entity with a dot in its name is sent but cannot be received. -/
theorem dotted_entity_lost (v : Env N E C) (e : E) (h : '.' ∈ v.name e) (hn : '.' ∉ v.ns e) :
    ∃ j, serializable v (.entity e) = .ok j ∧ deserialize v j = .error .valueError := by
  refine ⟨_, rfl, ?_⟩
  have k1 : onlyKey "UUID".toList [("ENTITY".toList, (Json.str (entityStr v e) : Json N))] = false := by simp [onlyKey]
  have k2 : onlyKey "ENTITY".toList [("ENTITY".toList, (Json.str (entityStr v e) : Json N))] = true := by simp [onlyKey]
  rw [deserialize, if_neg (by rw [k1]; decide), if_pos k2]
  have hs : splitOn '.' (entityStr v e) = v.ns e :: splitOn '.' (v.name e) := splitOn_append '.' _ _ hn
  have hl : ∀ t : Text, '.' ∈ t → ∃ a b r, splitOn '.' t = a :: b :: r := by
    intro t
    induction t with
    | nil => intro h; cases h
    | cons c t ih =>
      intro h
      rw [splitOn]
      by_cases hc : c = '.'
      · rw [if_pos hc]
        cases ht : splitOn '.' t with
        | nil =>
          exfalso
          cases t with
          | nil => simp [splitOn] at ht
          | cons d t => rw [splitOn] at ht; split at ht <;> (try cases ht) <;> (split at ht <;> cases ht)
        | cons x xs => exact ⟨[], x, xs, rfl⟩
      · rw [if_neg hc]
        rcases List.mem_cons.1 h with h | h
        · exact absurd h.symm hc
        · obtain ⟨a, b, r, e⟩ := ih h
          rw [e]
          exact ⟨c :: a, b, r, rfl⟩
  obtain ⟨a, b, r, e'⟩ := hl _ h
  simp [List.find?, getEntity, hs, e']

mutual
theorem ser_err (v : Env N E C) (x : Val N E C) (e : PyErr) (h : serializable v x = .error e) : e = .valueError := by
  match x with
  | .none | .bool _ | .num _ | .str _ | .uuid _ | .entity _ | .cuds _ => cases h
  | .list l =>
    rw [serializable] at h
    split at h
    · rename_i hl; injection h with h; subst h; exact serL_err v l _ hl
    · cases h
  | .dict kv =>
    rw [serializable] at h
    split at h
    · rename_i hl; injection h with h; subst h; exact serKV_err v kv _ hl
    · cases h
  | .other => injection h with h; exact h.symm
theorem serL_err (v : Env N E C) (l : List (Val N E C)) (e : PyErr) (h : serL v l = .error e) : e = .valueError := by
  match l with
  | [] => cases h
  | x :: xs =>
    rw [serL] at h
    split at h
    · rename_i hx; injection h with h; subst h; exact ser_err v x _ hx
    · split at h
      · rename_i hxs; injection h with h; subst h; exact serL_err v xs _ hxs
      · cases h
theorem serKV_err (v : Env N E C) (l : List (Text × Val N E C)) (e : PyErr) (h : serKV v l = .error e) : e = .valueError := by
  match l with
  | [] => cases h
  | (k, x) :: xs =>
    rw [serKV] at h
    split at h
    · rename_i hx; injection h with h; subst h; exact ser_err v x _ hx
    · split at h
      · rename_i hxs; injection h with h; subst h; exact serKV_err v xs _ hxs
      · cases h
end

theorem serL_mem (v : Env N E C) : ∀ {l : List (Val N E C)} {x}, x ∈ l → (∃ e, serializable v x = .error e) → ∃ e, serL v l = .error e := by
  intro l
  induction l with
  | nil => intro x h; cases h
  | cons y ys ih =>
    intro x h he
    rw [serL]
    cases hy : serializable v y with
    | error e => exact ⟨e, rfl⟩
    | ok j =>
      rcases List.mem_cons.1 h with h | h
      · subst h; obtain ⟨e, he⟩ := he; rw [he] at hy; cases hy
      · obtain ⟨e, h'⟩ := ih h he
        rw [h']
        exact ⟨e, rfl⟩

theorem serKV_mem (v : Env N E C) : ∀ {l : List (Text × Val N E C)} {k x}, (k, x) ∈ l → (∃ e, serializable v x = .error e) → ∃ e, serKV v l = .error e := by
  intro l
  induction l with
  | nil => intro k x h; cases h
  | cons p ys ih =>
    intro k x h he
    obtain ⟨k', y⟩ := p
    rw [serKV]
    cases hy : serializable v y with
    | error e => exact ⟨e, rfl⟩
    | ok j =>
      rcases List.mem_cons.1 h with h | h
      · injection h with _ h; subst h; obtain ⟨e, he⟩ := he; rw [he] at hy; cases hy
      · obtain ⟨e, h'⟩ := ih h he
        rw [h']
        exact ⟨e, rfl⟩

/-- **C06.** Values that are not supported are refused, wherever they occur. -/
theorem unsupported_refused (v : Env N E C) (x : Val N E C) (h : Inside .other x) : serializable v x = .error .valueError := by
  have key : ∃ e, serializable v x = .error e := by
    generalize ho : (Val.other : Val N E C) = o at h
    induction h with
    | refl => subst ho; exact ⟨_, rfl⟩
    | list hy _ ih =>
      obtain ⟨e, he⟩ := serL_mem v hy ih
      exact ⟨e, by rw [serializable, he]⟩
    | dict hy _ ih =>
      obtain ⟨e, he⟩ := serKV_mem v hy ih
      exact ⟨e, by rw [serializable, he]⟩
  obtain ⟨e, he⟩ := key
  rw [he, ser_err v x e he]

/-! ### examples -/

/-- Surroundings with one namespace; CUDS objects are numbered. Example; nothing in /repo. -/
def env0 : Env Nat Nat Nat where
  ns := fun _ => "city".toList
  name := fun e => "C".toList ++ dec e
  lookup := fun a b => if a = "city".toList then match pyInt (b.drop 1) with
    | some i => .ok i.toNat
    | none => .error .attributeError
    else .error .keyError
  ld := fun c => [.dict [("@id".toList, .num c)]]
  readLd := fun l => match l with
    | .dict ((_, .num c) :: _) :: _ => .ok c
    | _ => .error .valueError
  numUuid := fun n => .ok n

/-- The hypotheses hold for all uids, all entities and all objects of these surroundings. -/
example (u e c : Nat) (hu : u < 2 ^ 128) : Good env0 (.uuid u) ∧ Good env0 (.entity e) ∧ Good env0 (.cuds c) := by
  refine ⟨hu, ⟨(show '.' ∉ "city".toList by decide), ?_, ?_⟩, rfl, rfl⟩
  · show '.' ∉ "C".toList ++ dec e
    rw [List.mem_append, not_or]
    refine ⟨by decide, fun h => ?_⟩
    obtain ⟨n, hn, he⟩ := dec_digits e _ h
    have : ∀ n, n < 10 → '.' ≠ digitChar n := by decide
    exact this n hn he
  · show (if "city".toList = "city".toList then match pyInt (("C".toList ++ dec e).drop 1) with
      | some i => (.ok i.toNat : Except PyErr Nat)
      | none => (.error .attributeError : Except PyErr Nat) else (.error .keyError : Except PyErr Nat)) = .ok e
    rw [if_pos rfl, show ("C".toList ++ dec e).drop 1 = dec e from rfl, pyInt_dec]
    rfl

/-- A reserved shape: a user's dictionary with the only key "UUID". -/
example : Reserved (.dict [("UUID".toList, .str "x".toList)] : Val Nat Nat Nat) := ⟨by simp, Or.inl (by simp)⟩

end Osp.Transport
