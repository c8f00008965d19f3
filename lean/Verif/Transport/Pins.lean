import Verif.Transport.Files
import Verif.Transport.Values
/-!
# Which JSON values are uuids (C06)
-/
namespace Osp.Transport

variable {N E C : Type}

/-- **C06.** A JSON object whose only key is "UUID" is read as a uuid: from a text of 32 hexadecimal digits (in one of the usual notations), from a number, and, as `bool` is
a number in Python, from true and false, which are the uuids 1 and 0. Everything else raises a ValueError. -/
theorem uuid_exact (v : Env N E C) (j : Json N) : deserialize v (.dict [("UUID".toList, j)]) = match j with
    | .str t => match Iri.parseUuid t with
      | some u => .ok (.uuid u)
      | none => .error .valueError
    | .num n => match v.numUuid n with
      | .ok u => .ok (.uuid u)
      | .error e => .error e
    | .bool true => .ok (.uuid 1)
    | .bool false => .ok (.uuid 0)
    | _ => .error .valueError := by
  have k : onlyKey "UUID".toList [("UUID".toList, j)] = true := by simp [onlyKey]
  have f : (([("UUID".toList, j)].find? (fun p : Text × Json N => p.1 == "UUID".toList)).map Prod.snd).getD .null = j := by
    simp [List.find?]
  rw [deserialize, if_pos k, f]
  cases j with
  | str t => simp only [toUuid]; cases Iri.parseUuid t <;> rfl
  | num n => simp only [toUuid]; cases v.numUuid n <;> rfl
  | bool b => cases b <;> rfl
  | null => rfl
  | list l => rfl
  | dict d => rfl

/-- **C62.** A file object whose path cannot be read stops the transfer with the exception of the conversion. -/
theorem moveOne_refused (temp : Option String) (target : String) (fs : FS) (u : Nat) (path : String) {e : PyErr} (h : convertPath .posix path = .error e) : moveOne temp target fs u path = .error e := by
  unfold moveOne
  rw [h]

end Osp.Transport
