import Verif.Yaml.Model
/-!
# Specification for C55: what it means that a document conforms

`Conforms` for an arbitrary table of formats; `Document` and the notions it uses for the format of YAML ontologies, in plain words.
-/
namespace Osp.Yaml

/-- The document conforms to the pattern. -/
inductive Conforms (T : Table) : Yaml → Pat → Prop where
  | any {doc : Yaml} : Conforms T doc .any
  | regex {doc : Yaml} {r : Rx} {t : Text} : doc.text = some t → r.Means t → Conforms T doc (.regex r)
  | items {l : List Yaml} {p : Pat} : (∀ x ∈ l, Conforms T x p) → Conforms T (.list l) (.items p)
  | entries {l : Entries} {k v : Pat} : (∀ e ∈ l, Conforms T e.1 k) → (∀ e ∈ l, Conforms T e.2 v) → Conforms T (.dict l) (.entries k v)
  | str {t : Text} : Conforms T (.str t) .str
  | bool {doc : Yaml} : isBool doc = true → Conforms T doc .bool
  /-- one of the alternatives fits -/
  | oneOf {doc : Yaml} {f : Text} {ps : List Pat} {p : Pat} : T.find f = some (.alts ps) → p ∈ ps → Conforms T doc p → Conforms T doc (.named f)
  /-- the mandatory keys are there, what is there fits, and nothing else is there -/
  | fields {l : Entries} {f : Text} {ks : List (Text × Pat)} : T.find f = some (.keys ks) → (∀ kp ∈ ks, mandatory kp.1 = true → (get l (bare kp.1)).isSome) →
      (∀ kp ∈ ks, ∀ x, get l (bare kp.1) = some x → Conforms T x kp.2) → (∀ e ∈ l, ∃ kp ∈ ks, e.1 = .str (bare kp.1)) → Conforms T (.dict l) (.named f)

/-- The table mentions no format that it does not have, and an alternative is never just another format. -/
def Pat.Known (T : Table) : Pat → Prop
  | .named f => (T.find f).isSome
  | .items p => p.Known T
  | .entries k v => k.Known T ∧ v.Known T
  | _ => True

def Pat.isNamed : Pat → Bool
  | .named _ => true
  | _ => false

def Format.Known (T : Table) : Format → Prop
  | .alts ps => ∀ p ∈ ps, p.Known T ∧ p.isNamed = false
  | .keys ks => ∀ kp ∈ ks, kp.2.Known T

def Table.Closed (T : Table) : Prop := ∀ e ∈ T, e.2.Known T

/-! ### YAML ontologies -/

/-- A letter followed by letters, digits and underscores. -/
def IsName (t : Text) : Prop := ∃ c cs, t = c :: cs ∧ isLetter c = true ∧ ∀ x ∈ cs, isNameChar x = true
/-- `namespace.name` -/
def IsQualified (t : Text) : Prop := ∃ a b, t = a ++ '.' :: b ∧ IsName a ∧ IsName b

/-- The value is a scalar whose text is as described, up to one line feed at the end. -/
def Scalar (P : Text → Prop) (doc : Yaml) : Prop := ∃ t, doc.text = some t ∧ (P t ∨ ∃ u, t = u ++ ['\n'] ∧ P u)

/-- The dictionary has the key, with such a value. -/
def Mand (l : Entries) (k : String) (P : Yaml → Prop) : Prop := ∃ v, get l k.toList = some v ∧ P v
/-- If the dictionary has the key, then with such a value. -/
def Opt (l : Entries) (k : String) (P : Yaml → Prop) : Prop := ∀ v, get l k.toList = some v → P v
/-- The dictionary has no other keys. -/
def Only (l : Entries) (ks : List String) : Prop := ∀ e ∈ l, ∃ k ∈ ks, e.1 = .str k.toList

def ListOf (P : Yaml → Prop) (doc : Yaml) : Prop := ∃ l, doc = .list l ∧ ∀ x ∈ l, P x
def DictOf (K V : Yaml → Prop) (doc : Yaml) : Prop := ∃ l, doc = .dict l ∧ ∀ e ∈ l, K e.1 ∧ V e.2

variable (dig : Char → Bool)

/-- A nonempty row of digits. -/
def Digits (t : Text) : Prop := t ≠ [] ∧ ∀ c ∈ t, dig c = true

/-- `1.0` or `1.0.0` -/
def IsVersion (t : Text) : Prop := (∃ a b, t = a ++ '.' :: b ∧ Digits dig a ∧ Digits dig b) ∨ ∃ a b c, t = a ++ '.' :: b ++ '.' :: c ∧ Digits dig a ∧ Digits dig b ∧ Digits dig c

/-- Words as in the documentation, `3+`, `2-5` (one digit after the dash) or `3`. -/
def IsCardinality (t : Text) : Prop :=
  t ∈ ["many".toList, "some".toList, "*".toList, "+".toList, "?".toList] ∨ (∃ n, t = n ++ ['+'] ∧ Digits dig n) ∨ (∃ n c, t = n ++ ['-', c] ∧ Digits dig n ∧ dig c = true) ∨ Digits dig t

/-- A basic datatype or `VECTOR`, perhaps with `VECTOR:` before and sizes after it. -/
def IsDatatype (t : Text) : Prop :=
  ∃ (pre base : Text) (sizes : List Text), t = pre ++ base ++ (sizes.map (fun n => ':' :: n)).flatten ∧ (pre = [] ∨ pre = "VECTOR:".toList) ∧ base ∈ ["BOOL", "INT", "FLOAT", "STRING", "VECTOR"].map String.toList ∧ ∀ n ∈ sizes, Digits dig n

mutual
/-- A class expression. -/
inductive ClassExpr : Yaml → Prop where
  | name {doc : Yaml} : Scalar IsQualified doc → ClassExpr doc
  | relationships {l : Entries} : (∀ e ∈ l, Scalar IsQualified e.1) → (∀ e ∈ l, Restriction e.2) → ClassExpr (.dict l)
  | andOr {l : Entries} : (∀ e ∈ l, Scalar (fun t => t = "or".toList ∨ t = "and".toList) e.1) → (∀ e ∈ l, ∃ ops, e.2 = .list ops) → (∀ e ∈ l, ∀ ops, e.2 = .list ops → ∀ x ∈ ops, ClassExpr x) →
      ClassExpr (.dict l)
  | neg {l : Entries} : (∀ e ∈ l, Scalar (fun t => t = "not".toList) e.1) → (∀ e ∈ l, ClassExpr e.2) → ClassExpr (.dict l)
/-- What a class expression says about one relationship. -/
inductive Restriction : Yaml → Prop where
  | mk {l : Entries} {v : Yaml} : get l "range".toList = some v → ClassExpr v → Opt l "cardinality" (Scalar (IsCardinality dig)) → Opt l "exclusive" (fun x => isBool x = true) →
      Only l ["range", "cardinality", "exclusive"] → Restriction (.dict l)
end

/-- The definition of an entity, with the given additional keys. -/
def Common (l : Entries) : Prop := Opt l "description" (fun v => ∃ t, v = .str t) ∧ Mand l "subclass_of" (ListOf (ClassExpr dig))
def ClassPart (l : Entries) : Prop :=
  Opt l "attributes" (DictOf (Scalar IsQualified) (fun _ => True)) ∧ Opt l "disjoint_with" (ListOf (ClassExpr dig)) ∧ Opt l "equivalent_to" (ListOf (ClassExpr dig))
def RelationshipPart (l : Entries) : Prop :=
  Opt l "inverse" (Scalar IsQualified) ∧ Opt l "default_rel" (fun v => isBool v = true) ∧ Opt l "domain" (ClassExpr dig) ∧ Opt l "range" (ClassExpr dig) ∧
  Opt l "characteristics" (ListOf (Scalar (fun t => t ∈ ["reflexive", "symmetric", "transitive", "functional", "irreflexive", "asymmetric", "inversefunctional"].map String.toList)))
def AttributePart (l : Entries) : Prop := Opt l "datatype" (Scalar (IsDatatype dig))

def EntityDef (doc : Yaml) : Prop :=
  ∃ l, doc = .dict l ∧ Common dig l ∧ ClassPart dig l ∧ RelationshipPart dig l ∧ AttributePart dig l ∧
    Only l ["description", "subclass_of", "attributes", "disjoint_with", "equivalent_to", "inverse", "default_rel", "domain", "range", "characteristics", "datatype"]
def ClassDef (doc : Yaml) : Prop := ∃ l, doc = .dict l ∧ Common dig l ∧ ClassPart dig l ∧ Only l ["description", "subclass_of", "attributes", "disjoint_with", "equivalent_to"]
def RelationshipDef (doc : Yaml) : Prop :=
  ∃ l, doc = .dict l ∧ Common dig l ∧ RelationshipPart dig l ∧ Only l ["description", "subclass_of", "inverse", "default_rel", "domain", "range", "characteristics"]
def AttributeDef (doc : Yaml) : Prop := ∃ l, doc = .dict l ∧ Common dig l ∧ AttributePart dig l ∧ Only l ["description", "subclass_of", "datatype"]

/-- A YAML ontology. -/
def Document (doc : Yaml) : Prop :=
  ∃ l, doc = .dict l ∧ Mand l "version" (Scalar (IsVersion dig)) ∧ Mand l "namespace" (fun v => ∃ c t, v.text = some (c :: t) ∧ isLetter c = true) ∧
    Mand l "ontology" (DictOf (Scalar IsName) (EntityDef dig)) ∧ Opt l "default_rel" (Scalar IsQualified) ∧ Opt l "author" (fun v => ∃ t, v = .str t) ∧
    Opt l "requirements" (ListOf (Scalar IsName)) ∧ Only l ["version", "namespace", "ontology", "default_rel", "author", "requirements"]

end Osp.Yaml
