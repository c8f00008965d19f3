import Verif.Show.Printed
import Verif.Show.Order
/-!
# Concrete presentations
-/
namespace Osp.Show.Ex
open Osp.Cuds Osp.Search Osp.Utils

/-- Texts for the example ontology: hasPart (1), isPartOf (2), City (5), Person (6), name (7), age (8). Values are numbers. -/
def T : Texts where
  rel r := if r = 1 then "city.hasPart".toList else if r = 2 then "city.isPartOf".toList else "cuba.relationship".toList
  cls c := if c = some 5 then "city.City".toList else "city.Person".toList
  attr a := if a = 7 then "city.name".toList else "city.age".toList
  argname a := if a = 7 then "name".toList else "age".toList
  val v := [digitChar (v / 10), digitChar (v % 10)]
  nameAttr := 7
  superclasses _ := ["cuba.Entity".toList, "city.City".toList]
  description _ := "To Be Determined".toList

/-- Like `exOnto` with two attributes; `hasPart` is active. -/
def O : Onto := { exOnto with attrs := fun _ => [7, 8] }

theorem O_wf : O.WF := by
  constructor
  · intro r
    by_cases h1 : r = 1
    · subst h1; rfl
    · by_cases h2 : r = 2
      · subst h2; rfl
      · simp [O, exOnto, h1, h2]
  · intro r; simp [O, exOnto]

theorem O_refl : ∀ r, O.subRel r r = true := by intro r; simp [O, exOnto]

/-- 1 has the parts 2 and 3, both have the part 4, which has the part 1. -/
def ops : List Op := [.create 1 5 [(7, 10), (8, 99)], .create 2 6 [(7, 20), (8, 30)], .create 3 6 [(7, 12)], .create 4 6 [(7, 11)],
  .add 1 [3, 2] (some 1) none, .add 2 [4] (some 1) none, .add 3 [4] (some 1) none, .add 4 [1] (some 1) none]

/-- The session after these calls. -/
def S : Sess where
  g := [⟨1, .attr 7, .val 10⟩, ⟨1, .attr 8, .val 99⟩, ⟨1, .type, .cls 5⟩, ⟨2, .attr 7, .val 20⟩, ⟨2, .attr 8, .val 30⟩, ⟨2, .type, .cls 6⟩,
    ⟨3, .attr 7, .val 12⟩, ⟨3, .type, .cls 6⟩, ⟨4, .attr 7, .val 11⟩, ⟨4, .type, .cls 6⟩, ⟨1, .rel 1, .cuds 3⟩, ⟨3, .rel 2, .cuds 1⟩,
    ⟨1, .rel 1, .cuds 2⟩, ⟨2, .rel 2, .cuds 1⟩, ⟨2, .rel 1, .cuds 4⟩, ⟨4, .rel 2, .cuds 2⟩, ⟨3, .rel 1, .cuds 4⟩, ⟨4, .rel 2, .cuds 3⟩,
    ⟨4, .rel 1, .cuds 1⟩, ⟨1, .rel 2, .cuds 4⟩]
  reg := [1, 2, 3, 4]
  root := some 1

theorem S_eq : S = (run O {} ops).2 := by decide +kernel

theorem S_reachable : Reachable O S := by
  rw [S_eq]
  refine reachable_run _ .init ?_
  repeat' constructor
  all_goals decide

/-- The printed text. -/
def printed : Text := joinWith ['\n'] (["- Cuds object named <10>:",
  "  uuid: 00000000-0000-0000-0000-000000000001",
  "  type: city.City",
  "  superclasses: city.City, cuba.Entity",
  "  values: age: 99",
  "  description: ",
  "    To Be Determined",
  "",
  "   |_Relationship city.hasPart:",
  "     -  city.Person cuds object named <12>:",
  "     .  uuid: 00000000-0000-0000-0000-000000000003",
  "     .   |_Relationship city.hasPart:",
  "     .     -  city.Person cuds object named <11>:",
  "     .        uuid: 00000000-0000-0000-0000-000000000004",
  "     .         |_Relationship city.hasPart:",
  "     .           -  city.City cuds object named <10>:",
  "     .              uuid: 00000000-0000-0000-0000-000000000001",
  "     .              (already printed)",
  "     -  city.Person cuds object named <20>:",
  "        uuid: 00000000-0000-0000-0000-000000000002",
  "        age: 30",
  "         |_Relationship city.hasPart:",
  "           -  city.Person cuds object named <11>:",
  "              uuid: 00000000-0000-0000-0000-000000000004",
  "              (already printed)",
  ""].map String.toList)

/-- The model prints the text in the layout of the documentation, shared parts once, cycles cut. -/
theorem prints : prettyPrint T O S 5 1 = some (.ok printed) := by decide +kernel

/-- The hypotheses of `pretty_print_exact`: no clash, since all objects have names. -/
theorem no_clash (x : Uid) : ¬ Clash T O S x := by
  rintro ⟨r, y, a, ra, b, rb, ca, cb, _, _, _, _, h5, _, _, _, h9, _, _, h12⟩
  apply h12
  have hall : ∀ t ∈ S.g, ∀ z ∈ S.reg, t.o = .cuds z → nameOf T O S z ≠ none := by decide +kernel
  have := hall _ h5 b ((links_symmetric O_wf S_reachable _ _ _).2 h5).2 rfl
  rw [← nameOf_isSome O_wf S_reachable]
  cases hn : nameOf T O S b with
  | none => exact absurd hn this
  | some n => rfl

example : ∃ ls, ppLines T O S 5 1 = some (.ok ls) ∧ (described ls).Nodup :=
  let ⟨ls, h1, h2, _⟩ := pretty_print_exact (T := T) O_wf O_refl S_reachable 1 (by decide +kernel) 5 (by decide +kernel) (fun x _ => no_clash x)
  ⟨ls, h1, h2⟩

/-- The hypotheses of `pretty_print_text` hold, and it applies to the object 4, which is reached over another one. -/
example : ∃ text, prettyPrint T O S 5 1 = some (.ok text) ∧ ShownIn "uuid: 00000000-0000-0000-0000-000000000004".toList text := by
  obtain ⟨text, h1, h2⟩ := pretty_print_text (T := T) O_wf O_refl S_reachable 1 (by decide +kernel) 5 (by decide +kernel) (fun x _ => no_clash x)
  have l1 : Linked O S (some O.active) 1 3 := ⟨1, by decide +kernel, by rintro _ ⟨⟩; decide +kernel⟩
  have l2 : Linked O S (some O.active) 3 4 := ⟨1, by decide +kernel, by rintro _ ⟨⟩; decide +kernel⟩
  have h3 := (h2 4 ((Relation.ReflTransGen.tail (Relation.ReflTransGen.tail Relation.ReflTransGen.refl l1) l2))).1
  exact ⟨text, h1, by rw [show "uuid: 00000000-0000-0000-0000-000000000004".toList = "uuid: ".toList ++ Iri.uuidStr 4 from by decide +kernel]; exact h3⟩

/-- `pretty_print_sorted` applies: the object 1 has two links, and 3, called 12, comes before 2, called 20, although it was added first. -/
example : ∃ ls, ppLines T O S 5 1 = some (.ok ls) ∧ (shownLinks ls).filter (·.1 = 1) = [(1, 1, 3), (1, 1, 2)] ∧
    ((shownLinks ls).filter (·.1 = 1)).Pairwise (InOrder T O S) := by
  obtain ⟨ls, h1, h2⟩ : ∃ ls, ppLines T O S 5 1 = some (.ok ls) ∧ (shownLinks ls).filter (·.1 = 1) = [(1, 1, 3), (1, 1, 2)] := by
    have h : (ppLines T O S 5 1).map (fun e => match e with | .ok ls => some ((shownLinks ls).filter (·.1 = 1)) | .error _ => none) =
      some (some [(1, 1, 3), (1, 1, 2)]) := by decide +kernel
    cases hp : ppLines T O S 5 1 with
    | none => rw [hp] at h; cases h
    | some e => cases e with
      | error e => rw [hp] at h; cases h
      | ok ls => rw [hp] at h; exact ⟨ls, rfl, Option.some.inj (Option.some.inj h)⟩
  exact ⟨ls, h1, h2, pretty_print_sorted O_wf O_refl S_reachable 1 (by decide +kernel) 5 (by decide +kernel) ls h1 1⟩

/-- Two parts of one class, one without a name: printing raises TypeError, although both objects are legal. -/
def S2 : Sess := (run O {} [.create 1 5 [(7, 10)], .create 2 6 [(7, 20)], .create 3 6 [(8, 12)], .add 1 [2, 3] (some 1) none]).2

theorem unnamed_object_breaks_printing : ppLines T O S2 4 1 = some (.error .typeError) ∧ ppLines T O S2 4 2 = some (.ok []) := by
  decide +kernel

/-- Two uids with the same short name. -/
def u1 : Uid := 0x12345678000000000000000000000abc
/-- Two uids with the same short name. -/
def u2 : Uid := 0x12345678111122223333444455555abc

/-- Two objects whose uids begin with the same eight and end with the same three digits become one node; the link between them becomes a loop,
and both are drawn as the root. -/
theorem short_names_merge :
    let s := (run O {} [.create u1 5 [], .create u2 6 [], .add u1 [u2] (some 1) none]).2
    dot O s 3 u1 = some [.node "12345678...abc".toList u1 true, .edge "12345678...abc".toList "12345678...abc".toList 1,
      .node "12345678...abc".toList u2 true, .edge "12345678...abc".toList "12345678...abc".toList 2] := by
  decide +kernel

/-- The drawing of the cyclic session. -/
example : (dot O S 5 1).map (fun st => (nodeObjects st, (edgeStmts st).length)) = some ([1, 3, 4, 2], 10) := by decide +kernel

end Osp.Show.Ex
