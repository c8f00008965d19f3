import Verif.Value.Props
/-!
# Values of attributes: examples (C90)

Floating point numbers are replaced by integers and a `nan` here: the theorems hold for any numbers with a text that can be read back.
-/
namespace Osp.Value
open Osp.Yaml (Basic Conv getPython intStr)

/-- Example: numbers `n/2` and nan (`none`); a text is `h` followed by the number of halves. -/
def halves : Fl (Option Int) where
  repr := fun f => match f with | some i => 'h' :: intStr i | none => "nan".toList
  parse := fun t => match t with | 'h' :: r => (pyInt r).map some | ['n', 'a', 'n'] => some none | r => (pyInt r).map (fun i => some (2 * i))
  ofInt := fun i => some (some (2 * i))
  trunc := fun f => match f with | some i => .ok (i.tdiv 2) | none => .error .valueError
  isZero := fun f => f == some 0
  real := fun f => f.map some
  parse_repr := by
    intro f
    cases f with
    | none => decide
    | some i => simp only [pyInt_intStr, Option.map_some]

/-- Example: an attribute with the datatype STRING:5. -/
def word : Attr := ⟨"#w".toList, some (Yaml.strPrefix ++ "5".toList)⟩
/-- Example: an attribute with the datatype INT. -/
def age : Attr := ⟨"#age".toList, some Basic.int.iri⟩
/-- Example: an attribute with the datatype BOOL. -/
def flag : Attr := ⟨"#flag".toList, some Basic.bool.iri⟩
/-- Example: an object with two attributes. -/
def obj : Obj (Option Int) := ⟨[("#age".toList, ⟨"7".toList, age.dt, some (.int 7)⟩), ("#flag".toList, ⟨"true".toList, flag.dt, some (.bool true)⟩)], 0, 0⟩

/-- The text "12" is an age; it replaces the old one and the flag stays. -/
theorem set_example : (setattr halves obj age (.atom (.str "12".toList))).2.graph = [("#flag".toList, ⟨"true".toList, flag.dt, some (.bool true)⟩), ("#age".toList, ⟨"12".toList, age.dt, some (.int 12)⟩)] := by
  decide +kernel

/-- 2.5 (five halves) as an age is cut to 2, the text "2.5" is refused. -/
theorem cut_example : convertTo halves age.dt (.atom (.float (some 5))) = .ok (.int 2) ∧ convertTo halves age.dt (.atom (.str "2.5".toList)) = .error .valueError := by decide +kernel

/-- The text "False" sets the flag. -/
theorem false_is_true : convertTo halves flag.dt (.atom (.str "False".toList)) = .ok (.bool true) := by decide +kernel

/-- A word of five letters is accepted, one of six refused. -/
theorem word_example : convertTo halves word.dt (.atom (.str "seven".toList)) = .ok (.str "seven".toList) ∧ convertTo halves word.dt (.atom (.str "eleven".toList)) = .error .valueError := by
  decide +kernel

/-- **C90.** The default `true` of an ontology for an attribute with the datatype STRING is the text "true", the value True given by the user the text "True"; the default 2.5 for an INT is refused, the value 2.5
given by the user is cut. Defaults of another type than their attribute do not act like values. -/
theorem default_differs : convertTo halves (some Basic.string.iri) (.lit (mkLit halves (some Basic.bool.iri) (.bool true))) = .ok (.str "true".toList) ∧
    convertTo halves (some Basic.string.iri) (.atom (.bool true)) = .ok (.str "True".toList) ∧
    convertTo halves age.dt (.lit (mkLit halves (some Basic.float.iri) (.float (some 5)))) = .error .valueError ∧ convertTo halves age.dt (.atom (.float (some 5))) = .ok (.int 2) := by
  decide +kernel

/-- nan is stored but cannot be loaded. -/
theorem nan_example : throughSqlite halves (mkLit halves (some Basic.float.iri) (.float none)) = .error .typeError := by decide +kernel

/-- The text "12" of an attribute without limit comes back as the text of the number. -/
theorem number_text_example : throughSqlite halves (mkLit halves (some Basic.string.iri) (.str "12".toList)) = .ok (mkLit halves (some Basic.string.iri) (.str "h24".toList)) := by decide +kernel

/-- UUID 1 is accepted as number, text and bytes. -/
theorem uuid_example : convertTo halves (some Basic.uuid.iri) (.atom (.int 1)) = .ok (.uuid 1) ∧
    convertTo halves (some Basic.uuid.iri) (.atom (.str "00000000-0000-0000-0000-000000000001".toList)) = .ok (.uuid 1) ∧
    convertTo halves (some Basic.uuid.iri) (.bytes (List.replicate 15 0 ++ [1]) "".toList) = .ok (.uuid 1) ∧ convertTo halves (some Basic.uuid.iri) (.atom (.int (-1))) = .error .valueError := by
  decide +kernel

/-- A value of limited length that went through a file and the database. -/
theorem trip_example : throughText halves (mkLit halves word.dt (.str "12".toList)) = mkLit halves word.dt (.str "12".toList) ∧
    throughSqlite halves (mkLit halves word.dt (.str "12".toList)) = .ok (mkLit halves word.dt (.str "12".toList)) := by decide +kernel

end Osp.Value
