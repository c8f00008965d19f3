import Verif.Backup.Model
/-!
# Specification of writing a converted ontology (C105)
-/
namespace Osp.Backup

/-- Specification. Copying a text piece by piece copies the text. -/
def Faithful (E : Env) : Prop := ∀ t, (E.pieces t).flatten = t

/-- Specification. The files in the directory are finitely many: the names of backups that are taken are in a list of `n` names. -/
def AtMost (E : Env) (d : Disk) (x : Text) (n : Nat) : Prop := ∃ l : List Text, l.length ≤ n ∧ ∀ k, d (E.leads (cand x k)) ≠ .absent → cand x k ∈ l

/-- Specification. The name `b` is the first of `x.orig`, `x.orig[0]`, `x.orig[1]`, … that does not exist. -/
def FirstFree (E : Env) (d : Disk) (x b : Text) : Prop := ∃ k, b = cand x k ∧ d (E.leads b) = .absent ∧ ∀ j < k, d (E.leads (cand x j)) ≠ .absent

/-- Specification. What a conversion in place may leave on the disc: the file at `p` had the text `t`, its backup goes to `b`, the converted text is `new`. -/
structure Kept (p b : Place) (t new : Text) (e : End) (d d' : Disk) : Prop where
  /-- there was nothing at the place of the backup -/
  free : d b = .absent
  /-- no other file is changed -/
  others : ∀ q, q ≠ p → q ≠ b → d' q = d q
  /-- wherever it was interrupted, the original text is on the disc -/
  safe : d' p = .file t ∨ d' b = .file t
  /-- the file is only touched after the backup is complete -/
  order : d' p ≠ .file t → d' b = .file t
  done : e = .done → d' p = .file new ∧ d' b = .file t
  raised : ∀ x, e = .raised x → d' = d
  /-- an interrupted file is a part of the converted text -/
  part : e = .interrupted → d' p = .file t ∨ ∃ a c, d' p = .file a ∧ a ++ c = new

/-- Specification. A conversion in place. -/
structure Conversion where
  pieces : List Text
  output : Option Arg
  stop : Option Nat

/-- Specification. The output is the file itself: no output, the empty text or the path of the file as it was given. -/
def InPlace (x : Arg) (o : Option Arg) : Prop := o = none ∨ o = some (.str []) ∨ o = some x

end Osp.Backup
