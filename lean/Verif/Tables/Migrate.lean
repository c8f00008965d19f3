import Verif.Tables.Props
/-!
# Schema versions and migration (C44)

`osp/core/session/db/sql_migrate.py` (cited as mig:).
-/
namespace Osp.Tables
variable {D V : Type}

/-! ### versions -/

/-- mig:13-16. -/
def versions : List (String × Nat) := [("OSP_MASTER", 0), ("OSP_V1_CUDS", 1)]

/-- mig:18. -/
def supportedVersions : List Nat := [1]

/-- `max(versions.values())`, mig:34 and mig:68. -/
def maxVersion : Nat := (versions.map Prod.snd).foldl Nat.max 0

/-- `min` of an iterator: `ValueError` when it is empty. Python itself; models nothing in /repo. -/
def pyMin : List Nat → Except PyErr Nat
  | [] => .error .valueError
  | x :: xs => .ok (xs.foldl Nat.min x)

/-- `detect_current_schema_version`, mig:21-40. -/
def detect (tables : List String) : Except PyErr Nat :=
  if tables = [] then .ok maxVersion
  else match pyMin ((versions.filter (fun tv => tv.1 ∈ tables)).map Prod.snd) with
    | .error _ => .error .runtimeError
    | .ok v => .ok v

/-- `check_supported_schema_version`, mig:43-56. -/
def checkSupported (tables : List String) : Except PyErr Bool :=
  match detect tables with
  | .error e => .error e
  | .ok v => if v ∈ supportedVersions then .ok true else .error .runtimeError

/-- sql_migrate.py 62-72. -/
inductive Procedure where
  | noMigration | migrate01
  deriving DecidableEq

/-- `SqlMigrate.procedures`, mig:219-224. -/
def procedures (v w : Nat) : Option Procedure := if v = 0 then (if w = 0 then some .noMigration else if w = 1 then some .migrate01 else none) else none

/-- The choice of the procedure, `SqlMigrate.__init__`, mig:62-69. -/
def procedure (tables : List String) : Except PyErr Procedure :=
  match detect tables with
  | .error e => .error e
  | .ok v => match procedures v maxVersion with
    | none => .error .keyError
    | some p => .ok p

/-- **C44**, detection: an empty database has the newest version; the old master table means version 0 whatever else is there; otherwise the table of the CUDS objects
means version 1; anything else is refused. -/
theorem detect_exact (tables : List String) :
    detect tables = if tables = [] then .ok 1 else if "OSP_MASTER" ∈ tables then .ok 0 else if "OSP_V1_CUDS" ∈ tables then .ok 1 else .error .runtimeError := by
  unfold detect
  by_cases h : tables = []
  · simp only [h, if_true]; rfl
  · rw [if_neg h, if_neg h]
    by_cases h0 : "OSP_MASTER" ∈ tables <;> by_cases h1 : "OSP_V1_CUDS" ∈ tables <;> simp [versions, h0, h1, pyMin]

/-- **C44**, opening a session: exactly the empty database and the databases of version 1 are accepted, the others refused with `RuntimeError`. -/
theorem supported_exact (tables : List String) :
    checkSupported tables = if tables = [] ∨ ("OSP_V1_CUDS" ∈ tables ∧ "OSP_MASTER" ∉ tables) then .ok true else .error .runtimeError := by
  unfold checkSupported
  rw [detect_exact]
  by_cases h : tables = [] <;> by_cases h0 : "OSP_MASTER" ∈ tables <;> by_cases h1 : "OSP_V1_CUDS" ∈ tables <;> simp_all [supportedVersions]

/-- **C44**, migration: exactly databases with the old master table are migrated. -/
theorem procedure_exact (tables : List String) : procedure tables = .ok .migrate01 ↔ "OSP_MASTER" ∈ tables := by
  unfold procedure
  rw [detect_exact]
  have hm : maxVersion = 1 := rfl
  by_cases h : tables = [] <;> by_cases h0 : "OSP_MASTER" ∈ tables <;> by_cases h1 : "OSP_V1_CUDS" ∈ tables <;> simp_all [procedures]

/-- Finding (C44): running the migration on a database that needs none is a `KeyError` (there is no entry for version 1), also on a new database. -/
theorem migrating_current_database_fails (tables : List String) (h : tables = [] ∨ ("OSP_V1_CUDS" ∈ tables ∧ "OSP_MASTER" ∉ tables)) : procedure tables = .error .keyError := by
  unfold procedure
  rw [detect_exact]
  have hm : maxVersion = 1 := rfl
  rcases h with h | ⟨h1, h0⟩
  · simp [h, procedures]
  · by_cases h : tables = [] <;> simp_all [procedures]

/-! ### migration from version 0 to version 1 -/

/-- An entity as the migration uses it: the IRI of its namespace, its name in Python, its IRI, and its datatype. sql_migrate.py 94-206. -/
structure Entity (D : Type) where
  ns : Iri
  name : Iri
  iri : Iri
  dt : Option D

/-- The tables of version 0 after `get_entity` was applied to the names: objects with their classes (`""` is the wrapper), relationships with origin, target,
relationship and its inverse, and for every class its attributes and its rows of values and uid. sql_migrate.py 94-206. Modelling simplification. -/
structure V0 (D V : Type) where
  master : List (Uid × Entity D)
  rels : List (Uid × Uid × Entity D × Entity D)
  data : List (List (Entity D) × List (List V × Uid))

/-- The state of the migration: the database and the dictionaries, mig:77-79. -/
structure Mig (D V : Type) where
  db : Db D V
  namespaces : List (Iri × Idx) := []
  entities : List (Iri × Idx) := []
  cuds : List (Uid × Idx) := []

/-- `get_ns_idx_0_1`, mig:183-192. -/
def migNs (n : Iri) (m : Mig D V) : Idx × Mig D V :=
  match m.namespaces.lookup n with
  | some i => (i, m)
  | none => (fresh m.db.ns, { m with db := { m.db with ns := m.db.ns ++ [(fresh m.db.ns, n)] }, namespaces := (n, fresh m.db.ns) :: m.namespaces })

/-- `get_entity_idx_0_1`, mig:194-202. -/
def migEnt (n : Idx) (e : Entity D) (m : Mig D V) : Idx × Mig D V :=
  match m.entities.lookup e.iri with
  | some i => (i, m)
  | none => (fresh m.db.ents, { m with db := { m.db with ents := m.db.ents ++ [(fresh m.db.ents, (n, e.name))] }, entities := (e.iri, fresh m.db.ents) :: m.entities })

/-- `get_cuds_idx_0_1`, mig:173-181. -/
def migCuds (u : Uid) (m : Mig D V) : Idx × Mig D V :=
  match m.cuds.lookup u with
  | some i => (i, m)
  | none => (fresh m.db.cuds, { m with db := { m.db with cuds := m.db.cuds ++ [(fresh m.db.cuds, u)] }, cuds := (u, fresh m.db.cuds) :: m.cuds })

/-- Namespace and entity. sql_migrate.py 179-198. -/
def migEntity (e : Entity D) (m : Mig D V) : Idx × Mig D V :=
  let (n, m) := migNs e.ns m
  migEnt n e m

/-- `migrate_master_0_1`, mig:95-113: one row. -/
def migMaster (r : Uid × Entity D) (m : Mig D V) : Mig D V :=
  let (o, m) := migEntity r.2 m
  let (s, m) := migCuds r.1 m
  { m with db := { m.db with types := insertUnique (s, o) m.db.types } }

/-- `migrate_relations_0_1`, mig:115-140: one row. The link of the wrapper is added for links to it. -/
def migRel (r : Uid × Uid × Entity D × Entity D) (m : Mig D V) : Mig D V :=
  let (p, m) := migEntity r.2.2.1 m
  let (s, m) := migCuds r.1 m
  let (o, m) := migCuds r.2.1 m
  let m := { m with db := { m.db with rels := insertUnique (s, p, o) m.db.rels } }
  if r.2.1 = 0 then
    let (p, m) := migEntity r.2.2.2 m
    { m with db := { m.db with rels := insertUnique (o, p, s) m.db.rels } }
  else m

/-- `migrate_data_triple_0_1`, mig:160-171. -/
def migValue [DecidableEq D] (O : Onto D) (s : Idx) (a : Entity D × V) (m : Mig D V) : Except PyErr (Mig D V) :=
  let (p, m) := migEntity a.1 m
  let d := a.1.dt.getD O.xsdString
  if d ∈ m.db.dts then .ok { m with db := { m.db with data := fun e => if e = d then m.db.data d ++ [(s, p, a.2)] else m.db.data e } }
  else .error .exception

/-- sql_migrate.py 148-155, one row. -/
def migValues [DecidableEq D] (O : Onto D) (s : Idx) : List (Entity D × V) → Mig D V → Except PyErr (Mig D V)
  | [], m => .ok m
  | a :: as, m => match migValue O s a m with
    | .error e => .error e
    | .ok m => migValues O s as m

/-- `migrate_data_table_0_1`, mig:150-158: the rows of one class. -/
def migRows [DecidableEq D] (O : Onto D) (attrs : List (Entity D)) : List (List V × Uid) → Mig D V → Except PyErr (Mig D V)
  | [], m => .ok m
  | r :: rs, m =>
    let (s, m) := migCuds r.2 m
    match migValues O s (attrs.zip r.1) m with
    | .error e => .error e
    | .ok m => migRows O attrs rs m

/-- `migrate_data_0_1`, mig:142-148. -/
def migData [DecidableEq D] (O : Onto D) : List (List (Entity D) × List (List V × Uid)) → Mig D V → Except PyErr (Mig D V)
  | [], m => .ok m
  | t :: ts, m => match migRows O t.1 t.2 m with
    | .error e => .error e
    | .ok m => migData O ts m

/-- `migrate_0_1` on the tables of version 1, mig:75-93; an exception rolls the transaction back. -/
def migrate [DecidableEq D] (O : Onto D) (v : V0 D V) (db : Db D V) : Except PyErr (Db D V) :=
  match migData O v.data (v.rels.foldl (fun m r => migRel r m) (v.master.foldl (fun m r => migMaster r m) { db := db })) with
  | .error e => .error e
  | .ok m => .ok m.db

/-- The names of the tables of version 1 without the data tables, sql:22-26. -/
def v1Tables : List String := ["OSP_V1_NAMESPACES", "OSP_V1_CUDS", "OSP_V1_ENTITIES", "OSP_V1_TYPES", "OSP_V1_RELATIONS"]

/-- The tables after the migration: `delete_old_tables_0`, mig:212-215, drops every table there was when the tool was started. -/
def tablesAfter (tables dataTables : List String) : List String := ((tables ++ (v1Tables ++ dataTables).filter (· ∉ tables)).filter (· ∉ tables))

/-! ### specification -/

/-- The triples the tables of version 0 stand for. Specification; nothing in /repo. -/
def V0.triples (O : Onto D) (v : V0 D V) : List (Triple D V) :=
  v.master.map (fun r => ⟨r.1, O.rdfType, .ent r.2.iri⟩) ++
  v.rels.flatMap (fun r => ⟨r.1, r.2.2.1.iri, .cuds r.2.1⟩ :: (if r.2.1 = 0 then [⟨r.2.1, r.2.2.2.iri, .cuds r.1⟩] else [])) ++
  v.data.flatMap (fun t => t.2.flatMap (fun r => (t.1.zip r.1).map (fun a => ⟨r.2, a.1.iri, .lit (some (a.1.dt.getD O.xsdString)) a.2⟩)))

/-- An entity that is named by the rest of its IRI. Specification; nothing in /repo. -/
structure Entity.Ok (O : Onto D) (e : Entity D) : Prop where
  ns : O.nsOf e.iri = e.ns
  name : O.nameOf e.iri = e.name

/-- Specification; nothing in /repo. -/
structure V0.Ok (O : Onto D) (dts : List D) (v : V0 D V) : Prop where
  triples : ∀ t ∈ v.triples O, t.Ok O dts
  master : ∀ r ∈ v.master, r.2.Ok O
  rels : ∀ r ∈ v.rels, r.2.2.1.Ok O ∧ r.2.2.2.Ok O
  data : ∀ t ∈ v.data, ∀ e ∈ t.1, e.Ok O

/-! ### proof -/

/-- The dictionaries of the migration agree with the tables. Proof device; nothing in /repo. -/
structure Sim (O : Onto D) (m : Mig D V) (S : List (Triple D V)) : Prop where
  stores : Stores O ⟨m.db, m.db.ns⟩ S
  ns : ∀ n i, m.namespaces.lookup n = some i ↔ (i, n) ∈ m.db.ns
  ents : ∀ x i, m.entities.lookup x = some i ↔ E m.db i x
  cuds : ∀ u i, m.cuds.lookup u = some i ↔ C m.db i u

theorem lookup_cons_iff {α : Type} [DecidableEq α] [BEq α] [LawfulBEq α] (k x : α) (v i : Idx) (l : List (α × Idx)) : ((k, v) :: l).lookup x = some i ↔ if x = k then i = v else l.lookup x = some i := by
  rw [List.lookup_cons]
  by_cases h : x = k
  · subst h; simp [eq_comm]
  · have : (x == k) = false := by simpa using h
    rw [this, if_neg h]

theorem lookup_none_iff {α : Type} {p : α → Idx → Prop} {x : α} {o : Option Idx} (h : ∀ i, o = some i ↔ p x i) : o = none ↔ ∀ i, ¬ p x i := by
  constructor
  · intro hn i hp; rw [← h i, hn] at hp; cases hp
  · intro hn
    cases ho : o with
    | none => rfl
    | some i => exact absurd ((h i).1 ho) (hn i)

/-- A step that does not touch the triples. -/
theorem Sim.grow {O : Onto D} {m m' : Mig D V} {S : List (Triple D V)} (h : Sim O m S) (k : StepOk O ⟨m.db, m.db.ns⟩ ⟨m'.db, m'.db.ns⟩)
    (hn : ∀ n i, m'.namespaces.lookup n = some i ↔ (i, n) ∈ m'.db.ns) (he : ∀ x i, m'.entities.lookup x = some i ↔ E m'.db i x)
    (hc : ∀ u i, m'.cuds.lookup u = some i ↔ C m'.db i u) : Sim O m' S := ⟨h.stores.ext k, hn, he, hc⟩

theorem E_same {O : Onto D} {a b : St D V} (ha : Inv O a) (hb : Inv O b) (h : Ext a.db b.db) (he : b.db.ents = a.db.ents) (i : Idx) (x : Iri) : E b.db i x ↔ E a.db i x := by
  refine ⟨fun hx => h.E_back hb ?_ hx, h.E⟩
  obtain ⟨n, name, m, h1, _, _⟩ := hx
  rw [he] at h1
  obtain ⟨m', h2, _⟩ := ha.eref _ h1
  exact ⟨_, n, name, m', h1, h2, rfl⟩

theorem migNs_ok {O : Onto D} {m : Mig D V} {S : List (Triple D V)} (h : Sim O m S) (n : Iri) :
    Sim O (migNs n m).2 S ∧ StepOk O ⟨m.db, m.db.ns⟩ ⟨(migNs n m).2.db, (migNs n m).2.db.ns⟩ ∧ ((migNs n m).1, n) ∈ (migNs n m).2.db.ns := by
  unfold migNs
  cases hl : m.namespaces.lookup n with
  | some i => exact ⟨h, ⟨h.stores.inv, Ext.refl _⟩, (h.ns n i).1 hl⟩
  | none =>
    have hn := (lookup_none_iff (p := fun x i => (i, x) ∈ m.db.ns) (h.ns n)).1 hl
    have e : Ext m.db { m.db with ns := m.db.ns ++ [(fresh m.db.ns, n)] } := ⟨fun _ h => List.mem_append_left _ h, fun _ h => h, fun _ h => h, rfl, rfl, rfl, rfl⟩
    have hb : Bij (m.db.ns ++ [(fresh m.db.ns, n)]) := h.stores.inv.ns.snoc (fun r hr er => hn r.1 (by rw [← er]; exact hr))
    have k : StepOk O ⟨m.db, m.db.ns⟩ ⟨{ m.db with ns := m.db.ns ++ [(fresh m.db.ns, n)] }, m.db.ns ++ [(fresh m.db.ns, n)]⟩ := by
      refine ⟨h.stores.inv.extend e rfl hb h.stores.inv.cuds h.stores.inv.ents ?_, e⟩
      intro r hr
      obtain ⟨x, h1, h2⟩ := h.stores.inv.eref r hr
      exact ⟨x, List.mem_append_left _ h1, h2⟩
    refine ⟨h.grow k ?_ ?_ h.cuds, k, by simp⟩
    · intro x i
      dsimp only
      rw [lookup_cons_iff, List.mem_append, List.mem_singleton]
      by_cases hx : x = n
      · subst hx
        rw [if_pos rfl]
        constructor
        · rintro rfl; exact Or.inr rfl
        · rintro (hh | hh)
          · exact absurd hh (hn i)
          · cases hh; rfl
      · rw [if_neg hx, h.ns]
        constructor
        · exact Or.inl
        · rintro (hh | hh)
          · exact hh
          · cases hh; exact absurd rfl hx
    · intro x i
      exact (h.ents x i).trans (E_same h.stores.inv k.inv e rfl i x).symm

theorem migCuds_ok {O : Onto D} {m : Mig D V} {S : List (Triple D V)} (h : Sim O m S) (u : Uid) :
    Sim O (migCuds u m).2 S ∧ StepOk O ⟨m.db, m.db.ns⟩ ⟨(migCuds u m).2.db, (migCuds u m).2.db.ns⟩ ∧ C (migCuds u m).2.db (migCuds u m).1 u := by
  unfold migCuds
  cases hl : m.cuds.lookup u with
  | some i => exact ⟨h, ⟨h.stores.inv, Ext.refl _⟩, (h.cuds u i).1 hl⟩
  | none =>
    have hn := (lookup_none_iff (p := fun x i => C m.db i x) (h.cuds u)).1 hl
    have e : Ext m.db { m.db with cuds := m.db.cuds ++ [(fresh m.db.cuds, u)] } := ⟨fun _ h => h, fun _ h => List.mem_append_left _ h, fun _ h => h, rfl, rfl, rfl, rfl⟩
    have hb : Bij (m.db.cuds ++ [(fresh m.db.cuds, u)]) := h.stores.inv.cuds.snoc (fun r hr er => hn r.1 (by rw [← er]; exact hr))
    have k : StepOk O ⟨m.db, m.db.ns⟩ ⟨{ m.db with cuds := m.db.cuds ++ [(fresh m.db.cuds, u)] }, m.db.ns⟩ :=
      ⟨h.stores.inv.extend e rfl h.stores.inv.ns hb h.stores.inv.ents h.stores.inv.eref, e⟩
    refine ⟨h.grow k h.ns h.ents ?_, k, by simp [C]⟩
    intro x i
    dsimp only [C]
    rw [lookup_cons_iff, List.mem_append, List.mem_singleton]
    by_cases hx : x = u
    · subst hx
      rw [if_pos rfl]
      constructor
      · rintro rfl; exact Or.inr rfl
      · rintro (hh | hh)
        · exact absurd hh (hn i)
        · cases hh; rfl
    · rw [if_neg hx, h.cuds]
      constructor
      · exact Or.inl
      · rintro (hh | hh)
        · exact hh
        · cases hh; exact absurd rfl hx

theorem migEntity_ok {O : Onto D} (hO : O.WF) {m : Mig D V} {S : List (Triple D V)} (h : Sim O m S) {e : Entity D} (hE : e.Ok O) :
    Sim O (migEntity e m).2 S ∧ StepOk O ⟨m.db, m.db.ns⟩ ⟨(migEntity e m).2.db, (migEntity e m).2.db.ns⟩ ∧ E (migEntity e m).2.db (migEntity e m).1 e.iri := by
  obtain ⟨h1, k1, c1⟩ := migNs_ok h e.ns
  unfold migEntity
  generalize migNs e.ns m = y at h1 k1 c1
  obtain ⟨n, m1⟩ := y
  dsimp only at *
  have hi : e.ns ++ e.name = e.iri := by rw [← hE.ns, ← hE.name]; exact hO.join _
  unfold migEnt
  cases hl : m1.entities.lookup e.iri with
  | some i => exact ⟨h1, k1, (h1.ents _ i).1 hl⟩
  | none =>
    have hn := (lookup_none_iff (p := fun x i => E m1.db i x) (h1.ents e.iri)).1 hl
    have ex : Ext m1.db { m1.db with ents := m1.db.ents ++ [(fresh m1.db.ents, (n, e.name))] } := ⟨fun _ h => h, fun _ h => h, fun _ h => List.mem_append_left _ h, rfl, rfl, rfl, rfl⟩
    have hb : Bij (m1.db.ents ++ [(fresh m1.db.ents, (n, e.name))]) := h1.stores.inv.ents.snoc (fun r hr er => hn r.1 ⟨n, e.name, e.ns, by rw [← er]; exact hr, c1, hi.symm⟩)
    have hin : (fresh m1.db.ents, (n, e.name)) ∈ m1.db.ents ++ [(fresh m1.db.ents, (n, e.name))] := by simp
    have k : StepOk O ⟨m1.db, m1.db.ns⟩ ⟨{ m1.db with ents := m1.db.ents ++ [(fresh m1.db.ents, (n, e.name))] }, m1.db.ns⟩ := by
      refine ⟨h1.stores.inv.extend ex rfl h1.stores.inv.ns h1.stores.inv.cuds hb ?_, ex⟩
      intro r hr
      rcases List.mem_append.1 hr with hr | hr
      · exact h1.stores.inv.eref r hr
      · rw [List.mem_singleton] at hr
        subst hr
        exact ⟨e.ns, c1, by dsimp only; rw [hi]; exact hE.ns⟩
    have hE' : E ({ m1.db with ents := m1.db.ents ++ [(fresh m1.db.ents, (n, e.name))] } : Db D V) (fresh m1.db.ents) e.iri := ⟨n, e.name, e.ns, hin, c1, hi.symm⟩
    refine ⟨h1.grow k h1.ns ?_ h1.cuds, k1.trans k, hE'⟩
    intro x i
    dsimp only
    rw [lookup_cons_iff]
    by_cases hx : x = e.iri
    · subst hx
      rw [if_pos rfl]
      constructor
      · rintro rfl; exact hE'
      · intro hh; exact k.inv.E_inj hh hE'
    · rw [if_neg hx, h1.ents]
      constructor
      · exact ex.E
      · intro hh
        obtain ⟨n', name', ns', q1, q2, rfl⟩ := id hh
        rcases List.mem_append.1 q1 with q1 | q1
        · exact ⟨n', name', ns', q1, q2, rfl⟩
        · rw [List.mem_singleton] at q1
          cases q1
          exact absurd (k.inv.E_fun hh hE') hx

/-- A new row of the types. -/
theorem Sim.addType {O : Onto D} {m : Mig D V} {S : List (Triple D V)} (h : Sim O m S) {a b : Idx} {s : Uid} {i : Iri} (ha : C m.db a s) (hb : E m.db b i) :
    Sim O { m with db := { m.db with types := insertUnique (a, b) m.db.types } } (⟨s, O.rdfType, .ent i⟩ :: S) := by
  have q := h.stores.inv
  refine ⟨⟨⟨rfl, q.ns, q.cuds, q.ents, q.eref, ?_, q.rref, q.dref, q.dts⟩, ?_, ?_⟩, h.ns, h.ents, h.cuds⟩
  · intro r hr
    rcases (mem_insertUnique _ _ _).1 hr with hr | rfl
    · exact q.tref r hr
    · exact ⟨⟨s, ha⟩, ⟨i, hb⟩⟩
  · intro x
    rw [List.mem_cons, ← h.stores.has x]
    obtain ⟨xs, xp, xo⟩ := x
    match xo with
    | .ent j =>
      constructor
      · rintro ⟨e1, y, z, h1, h2, h3⟩
        rcases (mem_insertUnique _ _ _).1 h3 with h3 | h3
        · exact Or.inr ⟨e1, y, z, h1, h2, h3⟩
        · cases h3
          have e2 : xs = s := q.C_fun h1 ha
          have e3 : j = i := q.E_fun h2 hb
          left
          change xp = O.rdfType at e1
          rw [e1, e2, e3]
      · rintro (e | ⟨e1, y, z, h1, h2, h3⟩)
        · cases e
          exact ⟨rfl, a, b, ha, hb, (mem_insertUnique _ _ _).2 (Or.inr rfl)⟩
        · exact ⟨e1, y, z, h1, h2, (mem_insertUnique _ _ _).2 (Or.inl h3)⟩
    | .cuds u => exact ⟨Or.inr, fun h => h.elim (fun e => (by cases e)) id⟩
    | .lit none v => exact ⟨Or.inr, fun h => h.elim (fun e => (by cases e)) id⟩
    | .lit (some d) v => exact ⟨Or.inr, fun h => h.elim (fun e => (by cases e)) id⟩
  · intro x hx
    rcases List.mem_cons.1 hx with rfl | hx
    · rfl
    · exact h.stores.ok x hx

/-- A new row of the relationships. -/
theorem Sim.addRel {O : Onto D} {m : Mig D V} {S : List (Triple D V)} (h : Sim O m S) {a e b : Idx} {s u : Uid} {p : Iri} (ha : C m.db a s) (he : E m.db e p) (hb : C m.db b u)
    (hok : (⟨s, p, .cuds u⟩ : Triple D V).Ok O m.db.dts) : Sim O { m with db := { m.db with rels := insertUnique (a, e, b) m.db.rels } } (⟨s, p, .cuds u⟩ :: S) := by
  have q := h.stores.inv
  refine ⟨⟨⟨rfl, q.ns, q.cuds, q.ents, q.eref, q.tref, ?_, q.dref, q.dts⟩, ?_, ?_⟩, h.ns, h.ents, h.cuds⟩
  · intro r hr
    rcases (mem_insertUnique _ _ _).1 hr with hr | rfl
    · exact q.rref r hr
    · exact ⟨⟨s, ha⟩, ⟨p, he⟩, ⟨u, hb⟩⟩
  · intro x
    rw [List.mem_cons, ← h.stores.has x]
    obtain ⟨xs, xp, xo⟩ := x
    match xo with
    | .cuds j =>
      constructor
      · rintro ⟨y, z, w, h1, h2, h3, h4⟩
        rcases (mem_insertUnique _ _ _).1 h4 with h4 | h4
        · exact Or.inr ⟨y, z, w, h1, h2, h3, h4⟩
        · cases h4
          have e2 : xs = s := q.C_fun h1 ha
          have e3 : xp = p := q.E_fun h2 he
          have e4 : j = u := q.C_fun h3 hb
          left
          rw [e2, e3, e4]
      · rintro (e' | ⟨y, z, w, h1, h2, h3, h4⟩)
        · cases e'
          exact ⟨a, e, b, ha, he, hb, (mem_insertUnique _ _ _).2 (Or.inr rfl)⟩
        · exact ⟨y, z, w, h1, h2, h3, (mem_insertUnique _ _ _).2 (Or.inl h4)⟩
    | .ent u => exact ⟨Or.inr, fun h => h.elim (fun e => (by cases e)) id⟩
    | .lit none v => exact ⟨Or.inr, fun h => h.elim (fun e => (by cases e)) id⟩
    | .lit (some d) v => exact ⟨Or.inr, fun h => h.elim (fun e => (by cases e)) id⟩
  · intro x hx
    rcases List.mem_cons.1 hx with rfl | hx
    · exact hok
    · exact h.stores.ok x hx

/-- A new row of a data table. -/
theorem Sim.addData [DecidableEq D] {O : Onto D} {m : Mig D V} {S : List (Triple D V)} (h : Sim O m S) {a e : Idx} {s : Uid} {p : Iri} {d : D} {v : V} (ha : C m.db a s) (he : E m.db e p)
    (hd : d ∈ m.db.dts) (hok : (⟨s, p, .lit (some d) v⟩ : Triple D V).Ok O m.db.dts) :
    Sim O { m with db := { m.db with data := fun e' => if e' = d then m.db.data d ++ [(a, e, v)] else m.db.data e' } } (⟨s, p, .lit (some d) v⟩ :: S) := by
  have q := h.stores.inv
  have hmem : ∀ e' r, r ∈ (if e' = d then m.db.data d ++ [(a, e, v)] else m.db.data e') ↔ r ∈ m.db.data e' ∨ (e' = d ∧ r = (a, e, v)) := by
    intro e' r
    by_cases hh : e' = d
    · subst hh; simp
    · simp [hh]
  refine ⟨⟨⟨rfl, q.ns, q.cuds, q.ents, q.eref, q.tref, q.rref, ?_, ?_⟩, ?_, ?_⟩, h.ns, h.ents, h.cuds⟩
  · intro e' r hr
    rcases (hmem e' r).1 hr with hr | ⟨_, rfl⟩
    · exact q.dref e' r hr
    · exact ⟨⟨s, ha⟩, ⟨p, he⟩⟩
  · intro e' hh
    have : e' ≠ d := fun e'' => hh (e'' ▸ hd)
    show (if e' = d then _ else m.db.data e') = []
    rw [if_neg this]; exact q.dts e' hh
  · intro x
    rw [List.mem_cons, ← h.stores.has x]
    obtain ⟨xs, xp, xo⟩ := x
    match xo with
    | .lit (some d') v' =>
      constructor
      · rintro ⟨hd', y, z, h1, h2, h4⟩
        rcases (hmem _ _).1 h4 with h4 | ⟨e1, h4⟩
        · exact Or.inr ⟨hd', y, z, h1, h2, h4⟩
        · cases h4
          have e2 : xs = s := q.C_fun h1 ha
          have e3 : xp = p := q.E_fun h2 he
          left
          rw [e1, e2, e3]
      · rintro (e' | ⟨hd', y, z, h1, h2, h4⟩)
        · cases e'
          exact ⟨hd, a, e, ha, he, (hmem _ _).2 (Or.inr ⟨rfl, rfl⟩)⟩
        · exact ⟨hd', y, z, h1, h2, (hmem _ _).2 (Or.inl h4)⟩
    | .ent u => exact ⟨Or.inr, fun h => h.elim (fun e => (by cases e)) id⟩
    | .cuds u => exact ⟨Or.inr, fun h => h.elim (fun e => (by cases e)) id⟩
    | .lit none v => exact ⟨Or.inr, fun h => h.elim (fun e => (by cases e)) id⟩
  · intro x hx
    rcases List.mem_cons.1 hx with rfl | hx
    · exact hok
    · exact h.stores.ok x hx

/-- The same set in another order. -/
theorem Sim.congr {O : Onto D} {m : Mig D V} {S S' : List (Triple D V)} (h : Sim O m S) (e : ∀ x, x ∈ S' ↔ x ∈ S) : Sim O m S' :=
  ⟨⟨h.stores.inv, fun x => (h.stores.has x).trans (e x).symm, fun x hx => h.stores.ok x ((e x).1 hx)⟩, h.ns, h.ents, h.cuds⟩

theorem migMaster_ok {O : Onto D} (hO : O.WF) {m : Mig D V} {S : List (Triple D V)} (h : Sim O m S) (r : Uid × Entity D) (hE : r.2.Ok O) :
    Sim O (migMaster r m) (⟨r.1, O.rdfType, .ent r.2.iri⟩ :: S) ∧ (migMaster r m).db.dts = m.db.dts := by
  obtain ⟨h1, k1, c1⟩ := migEntity_ok hO h hE
  have hrun : migMaster r m = { (migCuds r.1 (migEntity r.2 m).2).2 with db := { (migCuds r.1 (migEntity r.2 m).2).2.db with
    types := insertUnique ((migCuds r.1 (migEntity r.2 m).2).1, (migEntity r.2 m).1) (migCuds r.1 (migEntity r.2 m).2).2.db.types } } := rfl
  rw [hrun]
  generalize migEntity r.2 m = y at h1 k1 c1
  obtain ⟨o, m1⟩ := y
  dsimp only at *
  obtain ⟨h2, k2, c2⟩ := migCuds_ok h1 r.1
  generalize migCuds r.1 m1 = z at h2 k2 c2
  obtain ⟨s, m2⟩ := z
  dsimp only at *
  exact ⟨h2.addType c2 (k2.ext.E c1), (k1.trans k2).ext.dts⟩

theorem migRel_ok {O : Onto D} (hO : O.WF) {m : Mig D V} {S : List (Triple D V)} (h : Sim O m S) (r : Uid × Uid × Entity D × Entity D) (hE : r.2.2.1.Ok O) (hI : r.2.2.2.Ok O)
    (hok : (⟨r.1, r.2.2.1.iri, .cuds r.2.1⟩ : Triple D V).Ok O m.db.dts) (hok' : r.2.1 = 0 → (⟨r.2.1, r.2.2.2.iri, .cuds r.1⟩ : Triple D V).Ok O m.db.dts) :
    Sim O (migRel r m) ((⟨r.1, r.2.2.1.iri, .cuds r.2.1⟩ :: (if r.2.1 = 0 then [⟨r.2.1, r.2.2.2.iri, .cuds r.1⟩] else [])) ++ S) ∧ (migRel r m).db.dts = m.db.dts := by
  obtain ⟨s, t, rel, inv⟩ := r
  dsimp only at *
  obtain ⟨h1, k1, c1⟩ := migEntity_ok hO h hE
  unfold migRel
  dsimp only
  generalize migEntity rel m = y at h1 k1 c1
  obtain ⟨p, m1⟩ := y
  dsimp only at *
  obtain ⟨h2, k2, c2⟩ := migCuds_ok h1 s
  generalize migCuds s m1 = y at h2 k2 c2
  obtain ⟨a, m2⟩ := y
  dsimp only at *
  obtain ⟨h3, k3, c3⟩ := migCuds_ok h2 t
  generalize migCuds t m2 = y at h3 k3 c3
  obtain ⟨b, m3⟩ := y
  dsimp only at *
  have k := (k1.trans k2).trans k3
  have dts : m3.db.dts = m.db.dts := k.ext.dts
  have c2' := k3.ext.C c2
  have h4 := h3.addRel c2' (k3.ext.E (k2.ext.E c1)) c3 (by rw [dts]; exact hok)
  generalize hm4 : ({ m3 with db := { m3.db with rels := insertUnique (a, p, b) m3.db.rels } } : Mig D V) = m4 at h4
  have d4 : m4.db.dts = m.db.dts := by rw [← hm4]; exact dts
  have c24 : C m4.db a s := by rw [← hm4]; exact c2'
  have c34 : C m4.db b t := by rw [← hm4]; exact c3
  by_cases ht : t = 0
  · rw [if_pos ht, if_pos ht]
    obtain ⟨h5, k5, c5⟩ := migEntity_ok hO h4 hI
    generalize migEntity inv m4 = y at h5 k5 c5
    obtain ⟨p', m5⟩ := y
    dsimp only at *
    have d5 : m5.db.dts = m.db.dts := k5.ext.dts.trans d4
    have h6 := h5.addRel (k5.ext.C c34) c5 (k5.ext.C c24) (by rw [d5]; exact hok' ht)
    refine ⟨h6.congr ?_, d5⟩
    intro x
    simp only [List.cons_append, List.nil_append, List.mem_cons]
    constructor
    · rintro (h | h | h)
      · exact Or.inr (Or.inl h)
      · exact Or.inl h
      · exact Or.inr (Or.inr h)
    · rintro (h | h | h)
      · exact Or.inr (Or.inl h)
      · exact Or.inl h
      · exact Or.inr (Or.inr h)
  · rw [if_neg ht, if_neg ht]
    exact ⟨h4, d4⟩

theorem foldMaster_ok {O : Onto D} (hO : O.WF) (rs : List (Uid × Entity D)) {m : Mig D V} {S : List (Triple D V)} (h : Sim O m S) (hE : ∀ r ∈ rs, r.2.Ok O) :
    Sim O (rs.foldl (fun m r => migMaster r m) m) (rs.map (fun r => ⟨r.1, O.rdfType, .ent r.2.iri⟩) ++ S) ∧ (rs.foldl (fun m r => migMaster r m) m).db.dts = m.db.dts := by
  induction rs generalizing m S with
  | nil => exact ⟨h, rfl⟩
  | cons r rs ih =>
    obtain ⟨h1, d1⟩ := migMaster_ok hO h r (hE r (List.mem_cons_self ..))
    obtain ⟨h2, d2⟩ := ih h1 (fun r hr => hE r (List.mem_cons_of_mem _ hr))
    refine ⟨h2.congr ?_, d2.trans d1⟩
    intro x
    simp only [List.map_cons, List.cons_append, List.mem_cons, List.mem_append]
    constructor
    · rintro (h | h | h)
      · exact Or.inr (Or.inl h)
      · exact Or.inl h
      · exact Or.inr (Or.inr h)
    · rintro (h | h | h)
      · exact Or.inr (Or.inl h)
      · exact Or.inl h
      · exact Or.inr (Or.inr h)

/-- The triples of one relationship row. Proof device; nothing in /repo. -/
def relTriples (r : Uid × Uid × Entity D × Entity D) : List (Triple D V) := ⟨r.1, r.2.2.1.iri, .cuds r.2.1⟩ :: (if r.2.1 = 0 then [⟨r.2.1, r.2.2.2.iri, .cuds r.1⟩] else [])

theorem foldRel_ok {O : Onto D} (hO : O.WF) (rs : List (Uid × Uid × Entity D × Entity D)) {m : Mig D V} {S : List (Triple D V)} (h : Sim O m S)
    (hE : ∀ r ∈ rs, r.2.2.1.Ok O ∧ r.2.2.2.Ok O) (hok : ∀ t ∈ rs.flatMap (relTriples (V := V)), t.Ok O m.db.dts) :
    Sim O (rs.foldl (fun m r => migRel r m) m) (rs.flatMap relTriples ++ S) ∧ (rs.foldl (fun m r => migRel r m) m).db.dts = m.db.dts := by
  induction rs generalizing m S with
  | nil => exact ⟨h, rfl⟩
  | cons r rs ih =>
    rw [List.flatMap_cons] at hok
    have hr : ∀ t ∈ relTriples (V := V) r, t.Ok O m.db.dts := fun t ht => hok t (List.mem_append_left _ ht)
    obtain ⟨h1, d1⟩ := migRel_ok hO h r (hE r (List.mem_cons_self ..)).1 (hE r (List.mem_cons_self ..)).2 (hr _ (List.mem_cons_self ..))
      (fun h0 => hr _ (by unfold relTriples; rw [if_pos h0]; simp))
    obtain ⟨h2, d2⟩ := ih h1 (fun r hr => hE r (List.mem_cons_of_mem _ hr)) (fun t ht => by rw [d1]; exact hok t (List.mem_append_right _ ht))
    refine ⟨h2.congr ?_, d2.trans d1⟩
    intro x
    rw [List.flatMap_cons]
    show x ∈ (relTriples r ++ _) ++ S ↔ x ∈ _ ++ (relTriples r ++ S)
    simp only [List.mem_append]
    constructor
    · rintro ((h | h) | h)
      · exact Or.inr (Or.inl h)
      · exact Or.inl h
      · exact Or.inr (Or.inr h)
    · rintro (h | h | h)
      · exact Or.inl (Or.inr h)
      · exact Or.inl (Or.inl h)
      · exact Or.inr h

/-- Proof device; nothing in /repo. -/
def valTriple (O : Onto D) (u : Uid) (a : Entity D × V) : Triple D V := ⟨u, a.1.iri, .lit (some (a.1.dt.getD O.xsdString)) a.2⟩

theorem migValues_ok [DecidableEq D] {O : Onto D} (hO : O.WF) (as : List (Entity D × V)) {m : Mig D V} {S : List (Triple D V)} (h : Sim O m S) {s : Idx} {u : Uid} (hs : C m.db s u)
    (hE : ∀ a ∈ as, a.1.Ok O) (hok : ∀ a ∈ as, (valTriple O u a).Ok O m.db.dts) :
    ∃ m', migValues O s as m = .ok m' ∧ Sim O m' (as.map (valTriple O u) ++ S) ∧ m'.db.dts = m.db.dts := by
  induction as generalizing m S with
  | nil => exact ⟨m, rfl, h, rfl⟩
  | cons a as ih =>
    obtain ⟨h1, k1, c1⟩ := migEntity_ok hO h (hE a (List.mem_cons_self ..))
    have hv := hok a (List.mem_cons_self ..)
    have hrun : migValues O s (a :: as) m = match (show Except PyErr (Mig D V) from if a.1.dt.getD O.xsdString ∈ (migEntity a.1 m).2.db.dts then
        Except.ok ({ (migEntity a.1 m).2 with db := { (migEntity a.1 m).2.db with data := fun e => if e = a.1.dt.getD O.xsdString then ((migEntity a.1 m).2.db.data (a.1.dt.getD O.xsdString)) ++ [(s, (migEntity a.1 m).1, a.2)] else (migEntity a.1 m).2.db.data e } } : Mig D V) else Except.error PyErr.exception) with
        | .error e => .error e
        | .ok m => migValues O s as m := rfl
    generalize migEntity a.1 m = y at h1 k1 c1 hrun
    obtain ⟨p, m1⟩ := y
    dsimp only at *
    have d1 : m1.db.dts = m.db.dts := k1.ext.dts
    have hd : a.1.dt.getD O.xsdString ∈ m1.db.dts := by
      obtain ⟨_, k, _, e, hh⟩ := hv
      rw [d1, show a.1.dt.getD O.xsdString = k.getD O.xsdString from Option.some.inj e]
      exact hh
    rw [if_pos hd] at hrun
    have h2 := h1.addData (v := a.2) (k1.ext.C hs) c1 hd (by rw [d1]; exact hv)
    generalize hm2 : ({ m1 with db := { m1.db with data := fun e => if e = a.1.dt.getD O.xsdString then m1.db.data (a.1.dt.getD O.xsdString) ++ [(s, p, a.2)] else m1.db.data e } } : Mig D V) = m2
      at h2 hrun
    have d2 : m2.db.dts = m.db.dts := by rw [← hm2]; exact d1
    have hs2 : C m2.db s u := by rw [← hm2]; exact k1.ext.C hs
    obtain ⟨m', e', h', d'⟩ := ih h2 hs2 (fun a ha => hE a (List.mem_cons_of_mem _ ha)) (fun a ha => by rw [d2]; exact hok a (List.mem_cons_of_mem _ ha))
    refine ⟨m', by rw [hrun]; exact e', h'.congr ?_, d'.trans d2⟩
    intro x
    simp only [List.map_cons, List.cons_append, List.mem_cons, List.mem_append, valTriple]
    constructor
    · rintro (h | h | h)
      · exact Or.inr (Or.inl h)
      · exact Or.inl h
      · exact Or.inr (Or.inr h)
    · rintro (h | h | h)
      · exact Or.inr (Or.inl h)
      · exact Or.inl h
      · exact Or.inr (Or.inr h)

theorem migRows_ok [DecidableEq D] {O : Onto D} (hO : O.WF) (attrs : List (Entity D)) (hE : ∀ e ∈ attrs, e.Ok O) (rs : List (List V × Uid)) {m : Mig D V} {S : List (Triple D V)} (h : Sim O m S)
    (hok : ∀ r ∈ rs, ∀ a ∈ attrs.zip r.1, (valTriple O r.2 a).Ok O m.db.dts) :
    ∃ m', migRows O attrs rs m = .ok m' ∧ Sim O m' (rs.flatMap (fun r => (attrs.zip r.1).map (valTriple O r.2)) ++ S) ∧ m'.db.dts = m.db.dts := by
  induction rs generalizing m S with
  | nil => exact ⟨m, rfl, h, rfl⟩
  | cons r rs ih =>
    obtain ⟨h1, k1, c1⟩ := migCuds_ok h r.2
    have hrun : migRows O attrs (r :: rs) m = match migValues O (migCuds r.2 m).1 (attrs.zip r.1) (migCuds r.2 m).2 with
        | .error e => .error e
        | .ok m => migRows O attrs rs m := rfl
    generalize migCuds r.2 m = y at h1 k1 c1 hrun
    obtain ⟨s, m1⟩ := y
    dsimp only at *
    have d1 : m1.db.dts = m.db.dts := k1.ext.dts
    obtain ⟨m2, e2, h2, d2⟩ := migValues_ok hO (attrs.zip r.1) h1 c1 (fun a ha => hE _ (List.of_mem_zip ha).1) (fun a ha => by rw [d1]; exact hok r (List.mem_cons_self ..) a ha)
    obtain ⟨m3, e3, h3, d3⟩ := ih h2 (fun r hr a ha => by rw [d2, d1]; exact hok r (List.mem_cons_of_mem _ hr) a ha)
    rw [e2] at hrun
    refine ⟨m3, hrun.trans e3, h3.congr ?_, d3.trans (d2.trans d1)⟩
    intro x
    rw [List.flatMap_cons]
    simp only [List.mem_append]
    constructor
    · rintro ((h | h) | h)
      · exact Or.inr (Or.inl h)
      · exact Or.inl h
      · exact Or.inr (Or.inr h)
    · rintro (h | h | h)
      · exact Or.inl (Or.inr h)
      · exact Or.inl (Or.inl h)
      · exact Or.inr h

/-- The triples of the rows of one class. Proof device; nothing in /repo. -/
def rowTriples (O : Onto D) (t : List (Entity D) × List (List V × Uid)) : List (Triple D V) := t.2.flatMap (fun r => (t.1.zip r.1).map (valTriple O r.2))

theorem migData_ok [DecidableEq D] {O : Onto D} (hO : O.WF) (ts : List (List (Entity D) × List (List V × Uid))) (hE : ∀ t ∈ ts, ∀ e ∈ t.1, e.Ok O) {m : Mig D V} {S : List (Triple D V)} (h : Sim O m S)
    (hok : ∀ t ∈ ts, ∀ x ∈ rowTriples O t, x.Ok O m.db.dts) :
    ∃ m', migData O ts m = .ok m' ∧ Sim O m' (ts.flatMap (rowTriples O) ++ S) ∧ m'.db.dts = m.db.dts := by
  induction ts generalizing m S with
  | nil => exact ⟨m, rfl, h, rfl⟩
  | cons t ts ih =>
    obtain ⟨m1, e1, h1, d1⟩ := migRows_ok hO t.1 (hE t (List.mem_cons_self ..)) t.2 h (by
      intro r hr a ha
      exact hok t (List.mem_cons_self ..) _ (List.mem_flatMap.2 ⟨r, hr, List.mem_map.2 ⟨a, ha, rfl⟩⟩))
    obtain ⟨m2, e2, h2, d2⟩ := ih (fun t ht => hE t (List.mem_cons_of_mem _ ht)) h1 (fun t ht x hx => by rw [d1]; exact hok t (List.mem_cons_of_mem _ ht) x hx)
    refine ⟨m2, by simp only [migData, e1]; exact e2, h2.congr ?_, d2.trans d1⟩
    intro x
    rw [List.flatMap_cons]
    show x ∈ (rowTriples O t ++ _) ++ S ↔ x ∈ _ ++ (rowTriples O t ++ S)
    simp only [List.mem_append]
    constructor
    · rintro ((h | h) | h)
      · exact Or.inr (Or.inl h)
      · exact Or.inl h
      · exact Or.inr (Or.inr h)
    · rintro (h | h | h)
      · exact Or.inl (Or.inr h)
      · exact Or.inl (Or.inl h)
      · exact Or.inr h

/-- **C44**, migration: every database of version 0 whose entities are installed and named by their IRIs is migrated without exception, and a session opened on the
result finds for every pattern exactly the triples the old tables stand for. -/
theorem migration_exact_partial [DecidableEq D] [DecidableEq V] {O : Onto D} (hO : O.WF) (dts more : List D) (v : V0 D V) (hv : v.Ok O dts) (pat : Pat D V)
    (hp : pat.Ok O (dts ++ more.filter (fun d => d ∉ dts))) :
    ∃ db, migrate O v { dts := dts } = .ok db ∧ ∃ res, (triples O pat (reopen more ⟨db, []⟩)).1 = .ok res ∧ ∀ t, t ∈ res ↔ t ∈ v.triples O ∧ pat.matches t = true := by
  have h0 : Sim O ({ db := { dts := dts } } : Mig D V) [] :=
    ⟨empty_ok O dts [] rfl, fun n i => (by simp), fun x i => ⟨fun h => (by cases h), fun h => (by obtain ⟨_, _, _, h, _⟩ := h; cases h)⟩, fun u i => ⟨fun h => (by cases h), fun h => (by cases h)⟩⟩
  obtain ⟨h1, d1⟩ := foldMaster_ok hO v.master h0 hv.master
  have hrel : ∀ t ∈ v.rels.flatMap (relTriples (V := V)), t ∈ v.triples O := fun t ht => List.mem_append_left _ (List.mem_append_right _ ht)
  have hdat : ∀ t ∈ v.data.flatMap (rowTriples O), t ∈ v.triples O := fun t ht => List.mem_append_right _ ht
  obtain ⟨h2, d2⟩ := foldRel_ok hO v.rels h1 hv.rels (fun t ht => by rw [d1]; exact hv.triples t (hrel t ht))
  obtain ⟨m, e, h3, d3⟩ := migData_ok hO v.data hv.data h2 (fun t ht x hx => by rw [d2, d1]; exact hv.triples x (hdat x (List.mem_flatMap.2 ⟨t, ht, hx⟩)))
  have hd : m.db.dts = dts := d3.trans (d2.trans d1)
  refine ⟨m.db, by simp only [migrate, e], ?_⟩
  have h4 : Stores O (reopen more (⟨m.db, m.db.ns⟩ : St D V)) (v.triples O) := reopen_ok (h3.congr (by
    intro x
    show x ∈ (_ ++ v.rels.flatMap relTriples) ++ v.data.flatMap (rowTriples O) ↔ _
    simp only [List.mem_append, List.append_nil]
    constructor
    · rintro ((h | h) | h)
      · exact Or.inr (Or.inr h)
      · exact Or.inr (Or.inl h)
      · exact Or.inl h
    · rintro (h | h | h)
      · exact Or.inr h
      · exact Or.inl (Or.inr h)
      · exact Or.inl (Or.inl h))).stores more
  have h5 : reopen more (⟨m.db, []⟩ : St D V) = reopen more ⟨m.db, m.db.ns⟩ := rfl
  rw [h5]
  have hd5 : (reopen more (⟨m.db, m.db.ns⟩ : St D V)).db.dts = dts ++ more.filter (fun d => d ∉ dts) := by show m.db.dts ++ more.filter (fun d => d ∉ m.db.dts) = _; rw [hd]
  obtain ⟨res, st', k1, _, k3⟩ := triples_ok hO h4 (pat := pat) (by rw [hd5]; exact hp)
  exact ⟨res, by rw [k1], k3⟩

/-- A concrete database of version 0: a wrapper with one object, which has a value. Example; nothing in /repo. -/
def v0 : V0 Nat Nat where
  master := [(0, ⟨"a#".toList, "W".toList, "a#W".toList, none⟩), (5, ⟨"b#".toList, "A".toList, "b#A".toList, none⟩)]
  rels := [(5, 0, ⟨"a#".toList, "r".toList, "a#r".toList, none⟩, ⟨"a#".toList, "r".toList, "a#r".toList, none⟩)]
  data := [([⟨"a#".toList, "v".toList, "a#v".toList, some 1⟩, ⟨"b#".toList, "w".toList, "b#w".toList, none⟩], [([7, 8], 5)])]

theorem v0_ok : v0.Ok O0 [0, 1] := by
  refine ⟨?_, ?_, ?_, ?_⟩
  · intro t ht
    have : v0.triples O0 = [⟨0, "t#type".toList, .ent "a#W".toList⟩, ⟨5, "t#type".toList, .ent "b#A".toList⟩, ⟨5, "a#r".toList, .cuds 0⟩, ⟨0, "a#r".toList, .cuds 5⟩,
      ⟨5, "a#v".toList, .lit (some 1) 7⟩, ⟨5, "b#w".toList, .lit (some 0) 8⟩] := by decide +kernel
    rw [this] at ht
    simp only [List.mem_cons, List.not_mem_nil, or_false] at ht
    rcases ht with rfl | rfl | rfl | rfl | rfl | rfl
    · rfl
    · rfl
    · exact ⟨by decide, by decide⟩
    · exact ⟨by decide, by decide⟩
    · exact ⟨by decide, some 1, by decide, by decide, by decide⟩
    · exact ⟨by decide, none, by decide, by decide, by decide⟩
  · intro r hr
    simp only [v0, List.mem_cons, List.not_mem_nil, or_false] at hr
    rcases hr with rfl | rfl <;> exact ⟨by decide, by decide⟩
  · intro r hr
    simp only [v0, List.mem_cons, List.not_mem_nil, or_false] at hr
    rcases hr with rfl
    exact ⟨⟨by decide, by decide⟩, ⟨by decide, by decide⟩⟩
  · intro t ht e he
    simp only [v0, List.mem_cons, List.not_mem_nil, or_false] at ht
    subst ht
    simp only [List.mem_cons, List.not_mem_nil, or_false] at he
    rcases he with rfl | rfl <;> exact ⟨by decide, by decide⟩

/-- Finding (C44): entities that are referenced by label in Python are migrated with their label: the migrated object has a class that does not exist. -/
theorem migration_stores_labels :
    (match migrate O0 { master := [(5, ⟨"a#".toList, "City".toList, "a#4711".toList, none⟩)], rels := [], data := [] } ({} : Db Nat Nat) with
      | .error e => (.error e : Except PyErr (List (Triple Nat Nat)))
      | .ok db => (triples O0 ⟨some 5, none, none⟩ (reopen [] ⟨db, []⟩)).1) = .ok [⟨5, "t#type".toList, .ent "a#City".toList⟩] := by decide +kernel

/-- The tables of version 1 that hold no attribute values (sql_wrapper_session.py 24-31, 60-64). -/
theorem v1Tables_names (x : String) : x ∈ v1Tables ↔ x = "OSP_V1_NAMESPACES" ∨ x = "OSP_V1_CUDS" ∨ x = "OSP_V1_ENTITIES" ∨ x = "OSP_V1_TYPES" ∨ x = "OSP_V1_RELATIONS" := by
  simp [v1Tables]

/-- The tables left by a migration: only those that were not there before. -/
theorem tables_after_migration (tables dataTables : List String) (x : String) : x ∈ tablesAfter tables dataTables ↔ (x ∈ v1Tables ∨ x ∈ dataTables) ∧ x ∉ tables := by
  unfold tablesAfter
  simp only [List.mem_filter, List.mem_append, decide_eq_true_eq]
  constructor
  · rintro ⟨h1 | h1, h2⟩
    · exact absurd h1 h2
    · exact h1
  · rintro ⟨h1, h2⟩; exact ⟨Or.inr ⟨h1, h2⟩, h2⟩

/-- Finding (C44): the migration drops every table of the database, also those of other applications, and when tables of version 1 exist already, these too, with
everything that was just migrated. -/
theorem migration_drops_everything (tables dataTables : List String) (h : ∀ x ∈ v1Tables ++ dataTables, x ∈ tables) : tablesAfter tables dataTables = [] := by
  rw [List.eq_nil_iff_forall_not_mem]
  intro x hx
  obtain ⟨h1, h2⟩ := (tables_after_migration _ _ _).1 hx
  exact h2 (h x (List.mem_append.2 h1))

end Osp.Tables
