import Verif.Wire.Model
import Mathlib.Data.List.Forall2
/-! Independent vocabulary for the wire protocol properties. -/
namespace Osp.Wire

/-- `e` is a non-negative integer that can be written with `w` bytes. -/
def FitsWidth (e : Elem) (w : Nat) : Prop := ∃ n : Nat, e = .int n ∧ n < 256 ^ w

/-- The element list is a list of integers fitting the widths one by one, optionally followed by one string. -/
def HeaderOk (els : List Elem) (ws : List Nat) : Prop :=
  ∃ fixed, List.Forall₂ FitsWidth fixed ws ∧ (els = fixed ∨ ∃ s, els = fixed ++ [.str s])

/-- What a receiver is meant to see of a header: everything, except that an empty trailing string is invisible. -/
def delivered (els : List Elem) : List Elem :=
  if els.getLast? = some (.str "") then els.dropLast else els

/-- The contents of the last file of the list that has the base name `n`. -/
def lastWithName (n : String) (files : List File) : Option Bytes :=
  ((files.filter (fun f => basename f.path = n)).getLast?).map (·.content)

/-- A file whose base name is a usable file name and whose number of blocks fits the 5 byte header field. -/
def Sendable (f : File) : Prop :=
  isFileName (basename f.path) = true ∧ ceilDiv f.content.length BLOCK_SIZE < 256 ^ 5

instance (f : File) : Decidable (Sendable f) := by unfold Sendable; infer_instance

/-- A request whose command is not empty and whose counts fit the header fields. -/
def RequestOk (command data : String) (files : List File) : Prop :=
  command ≠ "" ∧ ceilDiv (utf8 data).length BLOCK_SIZE < 256 ^ 5 ∧ files.length < 256 ^ 2 ∧ ∀ f ∈ files, Sendable f

/-- Directory after storing all files: last one of each base name wins, other names untouched. -/
def storeAll (dir : String → Option Bytes) (files : List File) : String → Option Bytes :=
  fun n => (lastWithName n files).or (dir n)

end Osp.Wire
