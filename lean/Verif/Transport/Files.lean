import Verif.Wire.Props
import Verif.Iri.Props
/-!
# Files attached to CUDS objects (C56, C62, C63)

`move_files`, `_convert_path_of_file_cuds` and `_determine_path_type_of_file_cuds` of `osp/core/session/transport/transport_utils.py`, and the way a file takes from
the client to the server. The file system maps path texts to contents; two different texts are different files (no links, no `.` or `..`). The machines are posix
machines, except in C56. Exceptions of the file system other than copying a directory (no permission, disk full) are not modelled.
-/
namespace Osp.Transport
open Osp.Wire

/-! ### path styles -/

/-- `os.name`; other values raise. Python itself; models nothing in /repo. -/
inductive OS where
  | nt | posix
  deriving DecidableEq

/-- `path.replace(a, b)` for single characters. Python itself; models nothing in /repo. -/
def replaceChar (a b : Char) (p : String) : String := String.ofList (p.toList.map (fun c => if c = a then b else c))

/-- transport_utils.py 406-442, the style of a path. -/
inductive PathType where
  | windows | linux

/-- `_determine_path_type_of_file_cuds`, transport_utils.py:430-442. -/
def pathType (p : String) : Except PyErr PathType :=
  if '\\' ∈ p.toList ∧ '/' ∉ p.toList then .ok .windows
  else if '/' ∈ p.toList ∧ '\\' ∉ p.toList then .ok .linux
  else if '/' ∉ p.toList ∧ '\\' ∉ p.toList then .ok .linux
  else .error .exception

/-- `_convert_path_of_file_cuds`, transport_utils.py:406-427. -/
def convertPath (os : OS) (p : String) : Except PyErr String :=
  match pathType p with
  | .error e => .error e
  | .ok .windows => match os with
    | .nt => .ok p
    | .posix => .ok (replaceChar '\\' '/' p)
  | .ok .linux => match os with
    | .posix => .ok p
    | .nt => .ok (replaceChar '/' '\\' p)

/-! ### files -/

/-- The operating system; modelling device. -/
structure FS where
  file : String → Option Bytes
  dir : String → Bool

/-- Python itself; models nothing in /repo. -/
def FS.exists (fs : FS) (p : String) : Bool := (fs.file p).isSome || fs.dir p

/-- `shutil.copyfile`, the writing part. Python itself; models nothing in /repo. -/
def FS.write (fs : FS) (p : String) (b : Bytes) : FS := { fs with file := fun q => if q = p then some b else fs.file q }

/-- What `os.path.join` puts before the second part. Python itself; models nothing in /repo. -/
def dirPrefix (d : String) : List Char := if d.toList = [] ∨ d.toList.getLast? = some '/' then d.toList else d.toList ++ ['/']

/-- `os.path.join(d, b)` on posix. Python itself; models nothing in /repo. -/
def join (d b : String) : String := if b.toList.head? = some '/' then b else String.ofList (dirPrefix d ++ b.toList)

/-- `uid.hex`. Python itself; models nothing in /repo. -/
def hexOf (u : Nat) : List Char := Iri.toHex 32 u

/-- The name of the file of an object, transport_utils.py:150-152. -/
def targetName (u : Nat) (base : String) : String :=
  if (hexOf u).isPrefixOf base.toList then base else String.ofList (hexOf u ++ '-' :: base.toList)

/-- Where the file of an object is taken from, transport_utils.py:145-148. -/
def source (temp : Option String) (p : String) : String := match temp with
  | none => p
  | some t => join t (basename p)

/-- Where it goes to, transport_utils.py:149-153. -/
def destination (target : String) (u : Nat) (p : String) : String := join target (targetName u (basename p))

/-- One round of `move_files`, transport_utils.py:143-181: the new file system, the new path of the object and the path reported as moved. The assertion that the object
is not expired is not modelled: it is in a buffer or was read just before. -/
def moveOne (temp : Option String) (target : String) (fs : FS) (u : Nat) (path : String) : Except PyErr (FS × String × Option String) :=
  match convertPath .posix path with
  | .error e => .error e
  | .ok p =>
    if fs.dir target = true ∧ fs.exists (source temp p) = true ∧ ¬ (fs.exists (destination target u p) = true ∧ source temp p = destination target u p) then
      match fs.file (source temp p) with
      | none => .error .isADirectoryError
      | some b => .ok (fs.write (destination target u p) b, destination target u p, some (destination target u p))
    else .ok (fs, path, none)

/-- `move_files` with a target directory, transport_utils.py:124-182; file objects are uid and path. After an exception the files moved before stay moved. -/
def moveFiles (temp : Option String) (target : String) : List (Nat × String) → FS → FS × List (Nat × String) × Except PyErr (List String)
  | [], fs => (fs, [], .ok [])
  | (u, p) :: r, fs => match moveOne temp target fs u p with
    | .error e => (fs, (u, p) :: r, .error e)
    | .ok (fs, p, m) =>
      let (fs, r, res) := moveFiles temp target r fs
      (fs, (u, p) :: r, match res with
        | .error e => .error e
        | .ok ms => .ok (m.toList ++ ms))

/-- `move_files` without a target directory, transport_utils.py:139-140: what the server sends back. -/
def filePaths : List (Nat × String) → Except PyErr (List String)
  | [] => .ok []
  | (_, p) :: r => match convertPath .posix p with
    | .error e => .error e
    | .ok q => match filePaths r with
      | .error e => .error e
      | .ok qs => .ok (q :: qs)

/-- The server's file system while a request with files is handled: the received files are in the temporary directory, communication_engine.py:79-83. -/
def FS.mount (fs : FS) (d : String) (files : String → Option Bytes) : FS :=
  { fs with file := fun q =>
      if (dirPrefix d).isPrefixOf q.toList ∧ '/' ∉ q.toList.drop (dirPrefix d).length then files (String.ofList (q.toList.drop (dirPrefix d).length)) else fs.file q }

/-! ### C56 -/

/-- Specification; nothing in /repo. -/
def isSep (c : Char) : Bool := c = '/' || c = '\\'

/-- The separator of a system. Specification; nothing in /repo. -/
def OS.sep : OS → Char
  | .nt => '\\'
  | .posix => '/'

/-- The components of a path in either style. Specification; nothing in /repo. -/
def components : List Char → List (List Char)
  | [] => [[]]
  | c :: t => if isSep c then [] :: components t else match components t with
    | [] => [[c]]
    | x :: xs => (c :: x) :: xs

theorem components_map (s : Char) (hs : isSep s = true) (t : List Char) : components (t.map (fun c => if isSep c then s else c)) = components t := by
  induction t with
  | nil => rfl
  | cons c t ih =>
    simp only [List.map_cons, components]
    by_cases h : isSep c = true
    · rw [if_pos h, if_pos hs, if_pos h, ih]
    · rw [if_neg h, if_neg h, ih]
      simp [h]

theorem map_sep_id {s : Char} {t : List Char} (h : ∀ c ∈ t, isSep c = true → c = s) : t.map (fun c => if isSep c then s else c) = t := by
  induction t with
  | nil => rfl
  | cons c t ih =>
    rw [List.map_cons, ih (fun x hx => h x (List.mem_cons_of_mem _ hx))]
    by_cases hc : isSep c = true
    · rw [if_pos hc, h c (List.mem_cons_self ..) hc]
    · rw [if_neg hc]

theorem isSep_iff (c : Char) : isSep c = true ↔ c = '/' ∨ c = '\\' := by simp [isSep]

theorem convert_spec (os : OS) (p : String) :
    (('/' ∈ p.toList ∧ '\\' ∈ p.toList) ∧ convertPath os p = .error .exception) ∨
    (¬ ('/' ∈ p.toList ∧ '\\' ∈ p.toList) ∧ convertPath os p = .ok (String.ofList (p.toList.map (fun c => if isSep c then os.sep else c)))) := by
  have back : String.ofList p.toList = p := String.ofList_toList
  by_cases h1 : '/' ∈ p.toList <;> by_cases h2 : '\\' ∈ p.toList
  · left
    refine ⟨⟨h1, h2⟩, ?_⟩
    simp [convertPath, pathType, h1, h2]
  · right
    refine ⟨fun h => h2 h.2, ?_⟩
    have hs : ∀ c ∈ p.toList, isSep c = true → c = '/' := by
      intro c hc hsep
      rcases (isSep_iff c).1 hsep with rfl | rfl
      · rfl
      · exact absurd hc h2
    cases os with
    | posix =>
      rw [show OS.sep .posix = '/' from rfl, map_sep_id hs, back]
      simp [convertPath, pathType, h1, h2]
    | nt =>
      simp only [convertPath, pathType, h1, h2, not_true_eq_false, not_false_eq_true, and_true, and_self, if_true, if_false, replaceChar, OS.sep]
      congr 2
      apply List.map_congr_left
      intro c hc
      by_cases hsep : isSep c = true
      · rw [if_pos hsep, if_pos (hs c hc hsep)]
      · rw [if_neg hsep, if_neg (fun e => hsep ((isSep_iff c).2 (Or.inl e)))]
  · right
    refine ⟨fun h => h1 h.1, ?_⟩
    have hs : ∀ c ∈ p.toList, isSep c = true → c = '\\' := by
      intro c hc hsep
      rcases (isSep_iff c).1 hsep with rfl | rfl
      · exact absurd hc h1
      · rfl
    cases os with
    | nt =>
      rw [show OS.sep .nt = '\\' from rfl, map_sep_id hs, back]
      simp [convertPath, pathType, h1, h2]
    | posix =>
      simp only [convertPath, pathType, h1, h2, not_true_eq_false, not_false_eq_true, and_self, if_true, replaceChar, OS.sep]
      congr 2
      apply List.map_congr_left
      intro c hc
      by_cases hsep : isSep c = true
      · rw [if_pos hsep, if_pos (hs c hc hsep)]
      · rw [if_neg hsep, if_neg (fun e => hsep ((isSep_iff c).2 (Or.inr e)))]
  · right
    refine ⟨fun h => h1 h.1, ?_⟩
    have hs : ∀ c ∈ p.toList, isSep c = false := by
      intro c hc
      by_cases hsep : isSep c = true
      · rcases (isSep_iff c).1 hsep with rfl | rfl
        · exact absurd hc h1
        · exact absurd hc h2
      · simpa using hsep
    rw [map_sep_id (fun c hc h => by rw [hs c hc] at h; cases h), back]
    cases os with
    | posix => simp [convertPath, pathType, h1, h2]
    | nt =>
      simp only [convertPath, pathType, h1, h2, not_false_eq_true, and_true, and_self, if_true, if_false, replaceChar]
      have : p.toList.map (fun c => if c = '/' then '\\' else c) = p.toList := by
        rw [List.map_congr_left (g := id), List.map_id]
        intro c hc
        rw [if_neg]
        · rfl
        · rintro rfl; exact h1 hc
      rw [this, back]

/-- **C56.** A path is refused exactly if it contains both separators; otherwise the result has the same components and contains only the separator of the
system. -/
theorem convert_path_exact (os : OS) (p : String) :
    (('/' ∈ p.toList ∧ '\\' ∈ p.toList) ↔ convertPath os p = .error .exception) ∧
    (¬ ('/' ∈ p.toList ∧ '\\' ∈ p.toList) → ∃ q, convertPath os p = .ok q ∧ components q.toList = components p.toList ∧ ∀ c ∈ q.toList, isSep c = true → c = os.sep) := by
  rcases convert_spec os p with ⟨h, e⟩ | ⟨h, e⟩
  · exact ⟨⟨fun _ => e, fun _ => h⟩, fun h' => absurd h h'⟩
  · refine ⟨⟨fun h' => absurd h' h, fun h' => by rw [e] at h'; cases h'⟩, fun _ => ⟨_, e, ?_, ?_⟩⟩
    · rw [String.toList_ofList]
      exact components_map _ (by cases os <;> rfl) _
    · rw [String.toList_ofList]
      intro c hc hsep
      obtain ⟨x, _, hx⟩ := List.mem_map.1 hc
      by_cases hxs : isSep x = true
      · rw [if_pos hxs] at hx; exact hx.symm
      · rw [if_neg hxs] at hx; subst hx; exact absurd hsep hxs

/-- **C56.** Converting to the other system and back gives the original path: file objects can be sent back and forth between machines. -/
theorem convert_path_back (os os' : OS) (p : String) (h : ∀ c ∈ p.toList, isSep c = true → c = os.sep) : ∃ q, convertPath os' p = .ok q ∧ convertPath os q = .ok p := by
  have hno : ∀ (s : Char) (t : List Char), (∀ c ∈ t, isSep c = true → c = s) → ¬ ('/' ∈ t ∧ '\\' ∈ t) := by
    intro s t ht ⟨a, b⟩
    have e1 := ht _ a rfl
    have e2 := ht _ b rfl
    rw [← e1] at e2
    exact absurd e2 (by decide)
  rcases convert_spec os' p with ⟨h', _⟩ | ⟨_, e⟩
  · exact absurd h' (hno _ _ h)
  · refine ⟨_, e, ?_⟩
    rcases convert_spec os (String.ofList (p.toList.map (fun c => if isSep c then os'.sep else c))) with ⟨h', _⟩ | ⟨_, e'⟩
    · refine absurd h' (hno os'.sep _ ?_)
      rw [String.toList_ofList]
      intro c hc hsep
      obtain ⟨x, _, hx⟩ := List.mem_map.1 hc
      by_cases hxs : isSep x = true
      · rw [if_pos hxs] at hx; exact hx.symm
      · rw [if_neg hxs] at hx; subst hx; exact absurd hsep hxs
    · rw [e', String.toList_ofList, List.map_map]
      congr 1
      have : p.toList.map ((fun c => if isSep c then os.sep else c) ∘ fun c => if isSep c then os'.sep else c) = p.toList.map (fun c => if isSep c then os.sep else c) := by
        apply List.map_congr_left
        intro c _
        show (if isSep (if isSep c then os'.sep else c) then os.sep else (if isSep c then os'.sep else c)) = _
        by_cases hc : isSep c = true
        · rw [if_pos hc, if_pos hc, if_pos (by cases os' <;> rfl)]
        · rw [if_neg hc, if_neg hc]
      rw [this, map_sep_id h, String.ofList_toList]

/-- The hypotheses are met; a path with both separators is refused even where it is a legal name. -/
example : convertPath .posix "C:\\data\\x.txt" = .ok "C:/data/x.txt" ∧ convertPath .nt "C:/data/x.txt" = .ok "C:\\data\\x.txt" ∧ convertPath .posix "/tmp/a\\b" = .error .exception := by
  decide +kernel

/-! ### names -/

theorem hexOf_length (u : Nat) : (hexOf u).length = 32 := Iri.toHex_length 32 u

theorem hexOf_inj {u v : Nat} (hu : u < 2 ^ 128) (hv : v < 2 ^ 128) (h : hexOf u = hexOf v) : u = v := by
  have a := (Iri.digits_toHex 32 u).1
  have b := (Iri.digits_toHex 32 v).1
  unfold hexOf at h
  rw [h, b] at a
  have a := Option.some.inj a
  have e : (16 : Nat) ^ 32 = 2 ^ 128 := by rw [show (16 : Nat) = 2 ^ 4 from rfl, ← Nat.pow_mul]
  rw [e] at a
  generalize (2 : Nat) ^ 128 = m at hu hv a
  rw [Nat.mod_eq_of_lt hv, Nat.mod_eq_of_lt hu] at a
  exact a.symm

theorem hexOf_chars (u : Nat) : ∀ c ∈ hexOf u, c ≠ '/' ∧ c ≠ '\\' ∧ c ≠ '.' := by
  intro c hc
  obtain ⟨n, hn, e⟩ := Iri.toHex_hex 32 u c hc
  subst e
  have : ∀ n, n < 16 → Iri.hexDigit n ≠ '/' ∧ Iri.hexDigit n ≠ '\\' ∧ Iri.hexDigit n ≠ '.' := by decide
  exact this n hn

theorem isPrefixOf_iff (a b : List Char) : a.isPrefixOf b = true ↔ ∃ r, b = a ++ r := by
  rw [List.isPrefixOf_iff_prefix]
  constructor
  · rintro ⟨r, hr⟩; exact ⟨r, hr.symm⟩
  · rintro ⟨r, hr⟩; exact ⟨r, hr.symm⟩

theorem targetName_prefix (u : Nat) (b : String) : ∃ r, (targetName u b).toList = hexOf u ++ r := by
  unfold targetName
  split
  · rename_i h; exact (isPrefixOf_iff _ _).1 h
  · exact ⟨_, String.toList_ofList⟩

theorem targetName_chars (u : Nat) {b : String} {c : Char} (hc : c = '/' ∨ c = '\\') (h : c ∉ b.toList) : c ∉ (targetName u b).toList := by
  unfold targetName
  split
  · exact h
  · rw [String.toList_ofList, List.mem_append, List.mem_cons]
    rintro (h' | h' | h')
    · have := hexOf_chars u c h'; rcases hc with rfl | rfl
      · exact this.1 rfl
      · exact this.2.1 rfl
    · subst h'; rcases hc with h' | h' <;> exact absurd h' (by decide)
    · exact h h'

theorem targetName_slash (u : Nat) (p : String) : '/' ∉ (targetName u (basename p)).toList :=
  targetName_chars u (c := '/') (Or.inl (Eq.refl '/')) (basename_no_slash p)

theorem targetName_back (u : Nat) {p : String} (h : '\\' ∉ p.toList) : '\\' ∉ (targetName u (basename p)).toList := by
  refine targetName_chars u (c := '\\') (Or.inr (Eq.refl '\\')) ?_
  intro hc
  refine h ?_
  unfold basename at hc
  rw [String.toList_ofList, List.mem_reverse] at hc
  exact List.mem_reverse.1 ((List.takeWhile_prefix _).subset hc)

theorem targetName_distinct {u v : Nat} (hu : u < 2 ^ 128) (hv : v < 2 ^ 128) (h : u ≠ v) (a b : String) : targetName u a ≠ targetName v b := by
  intro e
  obtain ⟨r, hr⟩ := targetName_prefix u a
  obtain ⟨r', hr'⟩ := targetName_prefix v b
  rw [e, hr'] at hr
  exact h (hexOf_inj hu hv (List.append_inj_left hr (by rw [hexOf_length, hexOf_length])).symm)

theorem targetName_again (u : Nat) (b : String) : targetName u (targetName u b) = targetName u b := by
  obtain ⟨r, hr⟩ := targetName_prefix u b
  generalize targetName u b = t at hr
  unfold targetName
  rw [if_pos ((isPrefixOf_iff _ _).2 ⟨r, hr⟩)]

theorem targetName_isFile (u : Nat) (b : String) : isFileName (targetName u b) = true := by
  obtain ⟨r, hr⟩ := targetName_prefix u b
  have hl : 32 ≤ (targetName u b).toList.length := by rw [hr, List.length_append, hexOf_length]; omega
  unfold isFileName
  have : ∀ s : String, s.toList.length < 32 → targetName u b ≠ s := by
    intro s hs e; rw [e] at hl; omega
  simp only [ne_eq, this "" (by decide), this "." (by decide), this ".." (by decide), not_false_eq_true, and_self, decide_true]

/-! ### joining -/

theorem join_toList (d : String) {b : String} (hb : '/' ∉ b.toList) : (join d b).toList = dirPrefix d ++ b.toList := by
  unfold join
  rw [if_neg, String.toList_ofList]
  intro h
  exact hb (List.mem_of_mem_head? h)

theorem dirPrefix_back {d : String} (h : '\\' ∉ d.toList) : '\\' ∉ dirPrefix d := by
  unfold dirPrefix
  split
  · exact h
  · rw [List.mem_append, not_or]; exact ⟨h, by decide⟩

theorem dirPrefix_end (d : String) : dirPrefix d = [] ∨ ∃ l, dirPrefix d = l ++ ['/'] := by
  unfold dirPrefix
  split
  · rename_i h
    rcases h with h | h
    · exact Or.inl h
    · right
      have hne : d.toList ≠ [] := by intro e; rw [e] at h; cases h
      refine ⟨d.toList.dropLast, ?_⟩
      have := List.dropLast_append_getLast? '/' h
      exact this.symm
  · exact Or.inr ⟨_, rfl⟩

theorem takeWhile_stop {α : Type} (p : α → Bool) (a : List α) (x : α) (b : List α) (ha : ∀ y ∈ a, p y = true) (hx : p x = false) : (a ++ x :: b).takeWhile p = a := by
  induction a with
  | nil => simp [hx]
  | cons y a ih => rw [List.cons_append, List.takeWhile_cons, if_pos (ha y (List.mem_cons_self ..)), ih (fun z hz => ha z (List.mem_cons_of_mem _ hz))]

theorem takeWhile_all {α : Type} (p : α → Bool) (a : List α) (ha : ∀ y ∈ a, p y = true) : a.takeWhile p = a := by
  induction a with
  | nil => rfl
  | cons y a ih => rw [List.takeWhile_cons, if_pos (ha y (List.mem_cons_self ..)), ih (fun z hz => ha z (List.mem_cons_of_mem _ hz))]

theorem basename_join (d : String) {b : String} (hb : '/' ∉ b.toList) : basename (join d b) = b := by
  unfold basename
  rw [join_toList d hb, List.reverse_append]
  have hall : ∀ y ∈ b.toList.reverse, decide (y ≠ '/') = true := by
    intro y hy
    rw [List.mem_reverse] at hy
    simp only [decide_eq_true_eq]
    rintro rfl; exact hb hy
  rcases dirPrefix_end d with h | ⟨l, h⟩
  · rw [h, List.reverse_nil, List.append_nil, takeWhile_all _ _ hall, List.reverse_reverse, String.ofList_toList]
  · rw [h, List.reverse_append]
    show String.ofList (((b.toList.reverse ++ '/' :: l.reverse).takeWhile _).reverse) = b
    rw [takeWhile_stop _ _ _ _ hall (by simp), List.reverse_reverse, String.ofList_toList]

theorem join_inj (d : String) {a b : String} (ha : '/' ∉ a.toList) (hb : '/' ∉ b.toList) (h : join d a = join d b) : a = b := by
  rw [← basename_join d ha, h, basename_join d hb]

theorem join_ne {d e : String} (hd : dirPrefix d ≠ dirPrefix e) {a b : String} (ha : '/' ∉ a.toList) (hb : '/' ∉ b.toList) : join d a ≠ join e b := by
  intro h
  have hab : a = b := by rw [← basename_join d ha, h, basename_join e hb]
  subst hab
  have := congrArg String.toList h
  rw [join_toList d ha, join_toList e ha] at this
  exact hd (List.append_cancel_right this)

theorem mount_join (fs : FS) (d : String) (files : String → Option Bytes) {b : String} (hb : '/' ∉ b.toList) : (fs.mount d files).file (join d b) = files b := by
  show (if _ then _ else _) = _
  rw [join_toList d hb, List.drop_left, String.ofList_toList, if_pos]
  exact ⟨(isPrefixOf_iff _ _).2 ⟨_, rfl⟩, hb⟩

theorem write_same (fs : FS) (p : String) (b : Bytes) : (fs.write p b).file p = some b := by simp [FS.write]

theorem write_other (fs : FS) {p q : String} (b : Bytes) (h : q ≠ p) : (fs.write p b).file q = fs.file q := by simp [FS.write, h]

attribute [local irreducible] hexOf targetName basename

/-! ### C62 -/

theorem moveOne_changes {temp : Option String} {target : String} {fs fs' : FS} {u : Nat} {p p' : String} {m : Option String}
    (h : moveOne temp target fs u p = .ok (fs', p', m)) :
    fs'.dir = fs.dir ∧ ∀ q, fs'.file q ≠ fs.file q → ∃ n, '/' ∉ n.toList ∧ (∃ r, n.toList = hexOf u ++ r) ∧ q = join target n := by
  unfold moveOne at h
  split at h
  · cases h
  · rename_i x hx
    split at h
    · cases hb : fs.file (source temp x) with
      | none => rw [hb] at h; cases h
      | some b =>
        rw [hb] at h
        have h1 := congrArg Prod.fst (Except.ok.inj h)
        dsimp only at h1
        subst h1
        refine ⟨rfl, fun q hq => ⟨targetName u (basename x), targetName_slash u x, targetName_prefix _ _, ?_⟩⟩
        by_cases hqe : q = destination target u x
        · exact hqe
        · exact absurd (write_other fs b hqe) hq
    · have h1 := congrArg Prod.fst (Except.ok.inj h)
      dsimp only at h1
      subst h1
      exact ⟨rfl, fun q hq => absurd rfl hq⟩

/-- **C62.** Whatever the paths of the file objects are, moving their files writes only files directly inside the target directory whose names begin with the uid of
the object; everything else stays as it is. -/
theorem moved_files_confined (temp : Option String) (target : String) (objs : List (Nat × String)) (fs : FS) (q : String)
    (h : (moveFiles temp target objs fs).1.file q ≠ fs.file q) :
    ∃ x ∈ objs, ∃ n : String, '/' ∉ n.toList ∧ (∃ r, n.toList = hexOf x.1 ++ r) ∧ q = join target n := by
  induction objs generalizing fs with
  | nil => exact absurd rfl h
  | cons x r ih =>
    obtain ⟨u, p⟩ := x
    unfold moveFiles at h
    cases hm : moveOne temp target fs u p with
    | error e => rw [hm] at h; exact absurd rfl h
    | ok y =>
      obtain ⟨fs', p', m⟩ := y
      rw [hm] at h
      change (moveFiles temp target r fs').1.file q ≠ fs.file q at h
      by_cases hq : fs'.file q = fs.file q
      · rw [← hq] at h
        obtain ⟨x, hx, hn⟩ := ih fs' h
        exact ⟨x, List.mem_cons_of_mem _ hx, hn⟩
      · exact ⟨(u, p), List.mem_cons_self .., (moveOne_changes hm).2 q hq⟩

/-- A file object that can be moved: its path is a posix path and its file exists outside the target directory. Specification; nothing in /repo. -/
structure Movable (temp : Option String) (target : String) (fs : FS) (x : Nat × String) : Prop where
  uid : x.1 < 2 ^ 128
  style : '\\' ∉ x.2.toList
  file : (fs.file (source temp x.2)).isSome = true
  outside : ∀ n : String, '/' ∉ n.toList → source temp x.2 ≠ join target n

theorem convert_posix {p : String} (h : '\\' ∉ p.toList) : convertPath .posix p = .ok p := by
  rcases convert_spec .posix p with ⟨h', _⟩ | ⟨_, e⟩
  · exact absurd h'.2 h
  · rw [e]
    have : p.toList.map (fun c => if isSep c then OS.sep .posix else c) = p.toList := map_sep_id (by
      intro c hc hs
      rcases (isSep_iff c).1 hs with rfl | rfl
      · rfl
      · exact absurd hc h)
    rw [this, String.ofList_toList]

theorem moveOne_ok {temp : Option String} {target : String} {fs : FS} {x : Nat × String} (hd : fs.dir target = true) (h : Movable temp target fs x) :
    ∃ b, fs.file (source temp x.2) = some b ∧
      moveOne temp target fs x.1 x.2 = .ok (fs.write (destination target x.1 x.2) b, destination target x.1 x.2, some (destination target x.1 x.2)) := by
  obtain ⟨b, hb⟩ := Option.isSome_iff_exists.1 h.file
  refine ⟨b, hb, ?_⟩
  unfold moveOne
  rw [convert_posix h.style]
  dsimp only
  have hne : source temp x.2 ≠ destination target x.1 x.2 := h.outside _ (targetName_slash _ _)
  rw [if_pos ⟨hd, by simp [FS.exists, hb], fun hh => hne hh.2⟩, hb]

/-- **C62.** Files of different objects never get in each other's way: for any number of file objects with different uids, with files of any names (equal names included),
all are copied: every destination has the contents of its own source, every object has its new path and the new paths are reported. -/
theorem moved_files_exact (temp : Option String) (target : String) (objs : List (Nat × String)) (fs : FS) (hd : fs.dir target = true)
    (hu : (objs.map Prod.fst).Nodup) (h : ∀ x ∈ objs, Movable temp target fs x) :
    (moveFiles temp target objs fs).2 = (objs.map (fun x => (x.1, destination target x.1 x.2)), .ok (objs.map (fun x => destination target x.1 x.2))) ∧
    (∀ x ∈ objs, (moveFiles temp target objs fs).1.file (destination target x.1 x.2) = fs.file (source temp x.2)) ∧
    (∀ q, (∀ x ∈ objs, q ≠ destination target x.1 x.2) → (moveFiles temp target objs fs).1.file q = fs.file q) := by
  induction objs generalizing fs with
  | nil => exact ⟨rfl, fun x hx => (by cases hx), fun q _ => rfl⟩
  | cons x r ih =>
    obtain ⟨u, p⟩ := x
    have hx := h (u, p) (List.mem_cons_self ..)
    obtain ⟨b, hb, hm⟩ := moveOne_ok hd hx
    generalize hfs : fs.write (destination target u p) b = fs1 at hm
    have hsame : ∀ q, q ≠ destination target u p → fs1.file q = fs.file q := by intro q hq; rw [← hfs]; exact write_other fs b hq
    have hnew : fs1.file (destination target u p) = some b := by rw [← hfs]; exact write_same fs _ b
    have hd1 : fs1.dir target = true := by subst hfs; exact hd
    have hmov : ∀ y ∈ r, Movable temp target fs1 y := by
      intro y hy
      have hy' := h y (List.mem_cons_of_mem _ hy)
      refine ⟨hy'.uid, hy'.style, ?_, hy'.outside⟩
      rw [hsame _ (hy'.outside _ (targetName_slash u p))]
      exact hy'.file
    rw [List.map_cons, List.nodup_cons] at hu
    obtain ⟨i1, i2, i3⟩ := ih fs1 hd1 hu.2 hmov
    have hrun : moveFiles temp target ((u, p) :: r) fs =
        ((moveFiles temp target r fs1).1, (u, destination target u p) :: (moveFiles temp target r fs1).2.1, match (moveFiles temp target r fs1).2.2 with
          | .error e => .error e
          | .ok ms => .ok (destination target u p :: ms)) := by
      show (match moveOne temp target fs u p with
        | .error e => _
        | .ok (fs, p, m) => _) = _
      rw [hm]
      rfl
    have hdist : ∀ y ∈ r, destination target u p ≠ destination target y.1 y.2 := by
      intro y hy e
      have hy' := h y (List.mem_cons_of_mem _ hy)
      have hne : u ≠ y.1 := fun e => hu.1 (List.mem_map.2 ⟨y, hy, e.symm⟩)
      exact targetName_distinct hx.uid hy'.uid hne _ _ (join_inj target (targetName_slash _ _) (targetName_slash _ _) e)
    rw [hrun]
    refine ⟨?_, ?_, ?_⟩
    · rw [i1]; rfl
    · intro y hy
      rcases List.mem_cons.1 hy with rfl | hy
      · rw [i3 _ hdist, hnew, hb]
      · have hy' := h y (List.mem_cons_of_mem _ hy)
        rw [i2 y hy]
        exact hsame _ (hy'.outside _ (targetName_slash u p))
    · intro q hq
      rw [i3 q (fun y hy => hq y (List.mem_cons_of_mem _ hy)), hsame q (hq (u, p) (List.mem_cons_self ..))]

/-! ### C63: from the client to the server -/

/-- What the client hands to the engine for the moved files. transport_session_client.py 113-132 with communication_utils.py 130-155: the files read. -/
def toSend (fs : FS) (paths : List String) : List (Option File) := paths.map (fun p => (fs.file p).map (fun b => ⟨p, b⟩))

theorem lastWithName_unique {files : List File} (hn : (files.map (fun f => basename f.path)).Nodup) {f : File} (hf : f ∈ files) : lastWithName (basename f.path) files = some f.content := by
  induction files with
  | nil => cases hf
  | cons g fs ih =>
    rw [List.map_cons, List.nodup_cons] at hn
    rw [lastWithName_cons]
    rcases List.mem_cons.1 hf with rfl | hf
    · have : lastWithName (basename f.path) fs = none := by
        unfold lastWithName
        have : fs.filter (fun g => basename g.path = basename f.path) = [] := by
          rw [List.filter_eq_nil_iff]
          intro g hg e
          exact hn.1 (List.mem_map.2 ⟨g, hg, by simpa using e⟩)
        rw [this]; rfl
      rw [this, if_pos rfl]; rfl
    · rw [ih hn.2 hf]; rfl

/-- **C63.** A file object sent with a request: for any number of file objects with different uids (files of any size the protocol can express, any names, equal names
included) the client copies the files to its own directory and sends them; on the server the files end up directly in its file directory, with the contents they had
on the client, and every object has the path of its own file. -/
theorem file_transfer_exact_partial {H : Type} (sha : Bytes → H) (hs : String → Option H) (destC destS tmp : String) (fsC fsS : FS) (objs : List (Nat × String))
    (hC : fsC.dir destC = true) (hS : fsS.dir destS = true) (htmp : dirPrefix tmp ≠ dirPrefix destS) (hstyle : '\\' ∉ destC.toList)
    (hu : (objs.map Prod.fst).Nodup) (h : ∀ x ∈ objs, Movable none destC fsC x)
    (hsize : ∀ x ∈ objs, ∀ b, fsC.file x.2 = some b → ceilDiv b.length BLOCK_SIZE < 256 ^ 5) :
    ∃ paths st, (moveFiles none destC objs fsC).2.2 = .ok paths ∧
      (encodeFiles (toSend (moveFiles none destC objs fsC).1 paths)).err = none ∧
      receiveFiles sha paths.length ⟨fun _ => none, hs⟩ (encodeFiles (toSend (moveFiles none destC objs fsC).1 paths)).frames = .ok (st, []) ∧
      (moveFiles (some tmp) destS (moveFiles none destC objs fsC).2.1 (fsS.mount tmp st.dir)).2.1 = objs.map (fun x => (x.1, join destS (targetName x.1 (basename x.2)))) ∧
      ∀ x ∈ objs, (moveFiles (some tmp) destS (moveFiles none destC objs fsC).2.1 (fsS.mount tmp st.dir)).1.file (join destS (targetName x.1 (basename x.2))) = fsC.file x.2 := by
  obtain ⟨m1, m2, m3⟩ := moved_files_exact none destC objs fsC hC hu h
  clear m3
  generalize hfs1 : (moveFiles none destC objs fsC).1 = fs1 at m2 ⊢
  rw [m1]
  dsimp only
  -- the files that are sent
  let files : List File := objs.map (fun x => ⟨destination destC x.1 x.2, (fsC.file x.2).getD []⟩)
  have hsend : toSend fs1 (objs.map (fun x => destination destC x.1 x.2)) = files.map some := by
    unfold toSend
    rw [List.map_map, List.map_map]
    apply List.map_congr_left
    intro x hx
    obtain ⟨b, hb⟩ := Option.isSome_iff_exists.1 (h x hx).file
    have e2 := m2 x hx
    rw [hb] at e2
    have hb' : fsC.file x.2 = some b := hb
    show (fs1.file (destination destC x.1 x.2)).map _ = some (⟨destination destC x.1 x.2, (fsC.file x.2).getD []⟩ : File)
    rw [e2, hb']
    rfl
  have slash : ∀ x : Nat × String, '/' ∉ (targetName x.1 (basename x.2)).toList := fun x => targetName_slash _ _
  have hbase : ∀ x : Nat × String, basename (destination destC x.1 x.2) = targetName x.1 (basename x.2) := fun x => basename_join destC (slash x)
  have hsendable : ∀ f ∈ files, Sendable f := by
    intro f hf
    obtain ⟨x, hx, rfl⟩ := List.mem_map.1 hf
    obtain ⟨b, hb⟩ := Option.isSome_iff_exists.1 (h x hx).file
    have hb' : fsC.file x.2 = some b := hb
    refine ⟨?_, ?_⟩
    · show isFileName (basename (destination destC x.1 x.2)) = true
      rw [hbase]; exact targetName_isFile _ _
    · show ceilDiv ((fsC.file x.2).getD []).length BLOCK_SIZE < 256 ^ 5
      rw [hb']; exact hsize x hx b hb'
  have hnames : (files.map (fun f => basename f.path)).Nodup := by
    have e : files.map (fun f => basename f.path) = objs.map (fun x => targetName x.1 (basename x.2)) := by
      show (objs.map _).map _ = _
      rw [List.map_map]
      exact List.map_congr_left (fun x _ => hbase x)
    rw [e]
    clear hsend hsendable e
    clear_value files
    clear files m1 m2 hfs1 hsize
    induction objs with
    | nil => exact List.nodup_nil
    | cons x r ih =>
      rw [List.map_cons, List.nodup_cons] at hu
      rw [List.map_cons, List.nodup_cons]
      refine ⟨?_, ih hu.2 (fun y hy => h y (List.mem_cons_of_mem _ hy))⟩
      intro hmem
      obtain ⟨y, hy, e⟩ := List.mem_map.1 hmem
      have hne : y.1 ≠ x.1 := fun e => hu.1 (List.mem_map.2 ⟨y, hy, e⟩)
      exact targetName_distinct (h y (List.mem_cons_of_mem _ hy)).uid (h x (List.mem_cons_self ..)).uid hne _ _ e
  obtain ⟨e1, st, e2, e3, _⟩ := files_roundtrip sha files hsendable ⟨fun _ => none, hs⟩ []
  rw [List.append_nil] at e2
  refine ⟨_, st, rfl, by rw [hsend]; exact e1, ?_, ?_⟩
  · rw [hsend, List.length_map]
    have : files.length = objs.length := List.length_map _
    rw [← this]; exact e2
  -- the server
  have hdir : ∀ x ∈ objs, st.dir (targetName x.1 (basename x.2)) = fsC.file x.2 := by
    intro x hx
    have hmem : (⟨destination destC x.1 x.2, (fsC.file x.2).getD []⟩ : File) ∈ files := List.mem_map.2 ⟨x, hx, rfl⟩
    have := lastWithName_unique hnames hmem
    rw [e3]
    dsimp only at this
    rw [hbase] at this
    rw [this]
    obtain ⟨b, hb⟩ := Option.isSome_iff_exists.1 (h x hx).file
    have hb' : fsC.file x.2 = some b := hb
    rw [hb']; rfl
  have hsrc : ∀ x : Nat × String, source (some tmp) (destination destC x.1 x.2) = join tmp (targetName x.1 (basename x.2)) := by
    intro x; show join tmp (basename (destination destC x.1 x.2)) = _; rw [hbase]
  have hmov : ∀ y ∈ objs.map (fun x => (x.1, destination destC x.1 x.2)), Movable (some tmp) destS (fsS.mount tmp st.dir) y := by
    intro y hy
    obtain ⟨x, hx, rfl⟩ := List.mem_map.1 hy
    have hx' := h x hx
    refine ⟨hx'.uid, ?_, ?_, ?_⟩
    · show '\\' ∉ (join destC (targetName x.1 (basename x.2))).toList
      rw [join_toList destC (slash x), List.mem_append, not_or]
      exact ⟨dirPrefix_back hstyle, targetName_back x.1 hx'.style⟩
    · show ((fsS.mount tmp st.dir).file (source (some tmp) (destination destC x.1 x.2))).isSome = true
      rw [hsrc, mount_join fsS tmp st.dir (slash x), hdir x hx]
      exact hx'.file
    · intro n hn
      show source (some tmp) (destination destC x.1 x.2) ≠ _
      rw [hsrc]
      exact join_ne htmp (slash x) hn
  have hu' : ((objs.map (fun x => (x.1, destination destC x.1 x.2))).map Prod.fst).Nodup := by rw [List.map_map]; exact hu
  obtain ⟨s1, s2, _⟩ := moved_files_exact (some tmp) destS (objs.map (fun x => (x.1, destination destC x.1 x.2))) (fsS.mount tmp st.dir) hS hu' hmov
  have hdest : ∀ x : Nat × String, destination destS x.1 (destination destC x.1 x.2) = join destS (targetName x.1 (basename x.2)) := by
    intro x; unfold destination; rw [basename_join destC (slash x), targetName_again]
  refine ⟨?_, ?_⟩
  · rw [s1, List.map_map]
    exact List.map_congr_left (fun x _ => by show (x.1, destination destS x.1 (destination destC x.1 x.2)) = _; rw [hdest])
  · intro x hx
    have := s2 (x.1, destination destC x.1 x.2) (List.mem_map.2 ⟨x, hx, rfl⟩)
    dsimp only at this
    rw [hdest, hsrc, mount_join fsS tmp st.dir (slash x), hdir x hx] at this
    exact this

/-- The hypotheses are met by two objects with files of the same name in different directories. Example; nothing in /repo. -/
def fs0 : FS := { file := fun p => if p = "/a/data.txt" then some [1] else if p = "/b/data.txt" then some [2] else if p = "/etc/passwd" then some [7] else none, dir := fun d => d = "/dest" }

example : fs0.dir "/dest" = true ∧ dirPrefix "/tmp/x" ≠ dirPrefix "/dest" ∧ ([(5, "/a/data.txt"), (6, "/b/data.txt")].map Prod.fst).Nodup ∧
    ∀ x ∈ [(5, "/a/data.txt"), (6, "/b/data.txt")], Movable none "/dest" fs0 x := by
  refine ⟨by decide +kernel, by decide +kernel, by decide, ?_⟩
  intro x hx
  have out : ∀ (d b : String), '/' ∉ b.toList → dirPrefix d ≠ dirPrefix "/dest" → ∀ n : String, '/' ∉ n.toList → join d b ≠ join "/dest" n := fun d b hb hd n hn => join_ne hd hb hn
  simp only [List.mem_cons, List.not_mem_nil, or_false] at hx
  rcases hx with rfl | rfl
  · refine ⟨(by decide : (5 : Nat) < 2 ^ 128), (by decide +kernel : '\\' ∉ "/a/data.txt".toList), (by decide +kernel : (fs0.file "/a/data.txt").isSome = true), ?_⟩
    intro n hn
    have e : source none "/a/data.txt" = join "/a" "data.txt" := by decide +kernel
    rw [e]
    exact out _ _ (by decide) (by decide +kernel) n hn
  · refine ⟨(by decide : (6 : Nat) < 2 ^ 128), (by decide +kernel : '\\' ∉ "/b/data.txt".toList), (by decide +kernel : (fs0.file "/b/data.txt").isSome = true), ?_⟩
    intro n hn
    have e : source none "/b/data.txt" = join "/b" "data.txt" := by decide +kernel
    rw [e]
    exact out _ _ (by decide) (by decide +kernel) n hn

/-- Finding (C63): the file is only sent once. When the object is sent again after its file in the client's directory was changed, source and destination are the same
file, so it is not reported as moved and not sent. -/
theorem changed_file_not_resent (destC : String) (fs : FS) (u : Nat) (p : String) (hp : '\\' ∉ destC.toList) (hb : '\\' ∉ p.toList) (_hd : fs.dir destC = true) :
    (moveFiles none destC [(u, destination destC u p)] fs).2.2 = .ok [] ∨ fs.file (destination destC u p) = none := by
  have slash : '/' ∉ (targetName u (basename p)).toList := targetName_slash _ _
  have hstyle : '\\' ∉ (destination destC u p).toList := by
    unfold destination
    rw [join_toList destC slash, List.mem_append, not_or]
    exact ⟨dirPrefix_back hp, targetName_back u hb⟩
  have hself : destination destC u (destination destC u p) = destination destC u p := by
    unfold destination; rw [basename_join destC slash, targetName_again]
  cases hf : fs.file (destination destC u p) with
  | none => exact Or.inr rfl
  | some b =>
    left
    unfold moveFiles moveOne
    rw [convert_posix hstyle]
    dsimp only
    rw [if_neg]
    · rfl
    · rintro ⟨_, _, h3⟩
      rw [hself] at h3
      exact h3 ⟨by simp [FS.exists, hf], rfl⟩

/-! ### C64: what the server sends back -/

/-- **C64**, the part that holds: an object whose file was received has its file in the server's file directory, so this is the file the server sends back. -/
theorem received_file_sent_back_partial (tmp destS : String) (fs : FS) (u : Nat) (p : String) (hd : fs.dir destS = true) (hstyle : '\\' ∉ destS.toList) (h : Movable (some tmp) destS fs (u, p)) :
    filePaths (moveFiles (some tmp) destS [(u, p)] fs).2.1 = .ok [destination destS u p] := by
  obtain ⟨m1, _⟩ := moved_files_exact (some tmp) destS [(u, p)] fs hd (by simp) (by intro x hx; rw [List.mem_singleton] at hx; subst hx; exact h)
  rw [m1]
  have slash : '/' ∉ (targetName u (basename p)).toList := targetName_slash _ _
  have hs : '\\' ∉ (destination destS u p).toList := by
    unfold destination
    rw [join_toList destS slash, List.mem_append, not_or]
    exact ⟨dirPrefix_back hstyle, targetName_back u h.style⟩
  show (match convertPath .posix (destination destS u p) with
    | .error e => (.error e : Except PyErr (List String))
    | .ok q => .ok [q]) = _
  rw [convert_posix hs]

/-- **C64** is false. An object whose file was not sent along keeps the path the client gave it, for every path; the server sends the file at that path of its own
file system when it sends the object back. -/
theorem any_file_sent (tmp destS : String) (fs : FS) (u : Nat) (p : String) (hp : '\\' ∉ p.toList) (hn : fs.exists (join tmp (basename p)) = false) :
    filePaths (moveFiles (some tmp) destS [(u, p)] fs).2.1 = .ok [p] := by
  have : moveFiles (some tmp) destS [(u, p)] fs = (fs, [(u, p)], .ok []) := by
    unfold moveFiles moveOne
    rw [convert_posix hp]
    dsimp only
    rw [if_neg]
    · rfl
    · rintro ⟨_, h2, _⟩; change fs.exists (join tmp (basename p)) = true at h2; rw [hn] at h2; cases h2
  rw [this]
  show (match convertPath .posix p with
    | .error e => (.error e : Except PyErr (List String))
    | .ok q => .ok [q]) = _
  rw [convert_posix hp]

/-- The concrete case: the contents of `/etc/passwd` go to the client. -/
theorem arbitrary_file_sent :
    (match filePaths (moveFiles (some "/tmp/x") "/dest" [(5, "/etc/passwd")] fs0).2.1 with
      | .ok ps => toSend fs0 ps
      | .error _ => []) = [some ⟨"/etc/passwd", [7]⟩] := by
  decide +kernel

end Osp.Transport
