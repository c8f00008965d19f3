import Verif.Wire.Props
/-!
# Receiving files, also when it fails half way (C59)

`receiveFiles` gives no state if an exception is raised; here the directory is followed through exceptions as well.
-/
namespace Osp.Wire

/-- The loop over the blocks of a file, communication_utils.py:178-182: what was written, and the exception or the frames left. -/
def writeBlocks : Nat → Bytes → List Bytes → Bytes × Except PyErr (List Bytes)
  | 0, acc, ws => (acc, .ok ws)
  | n + 1, acc, ws =>
    match recv ws with
    | .error e => (acc, .error e)
    | .ok (b, ws) => writeBlocks n (acc ++ b) ws

/-- One iteration of `receive_files`, communication_utils.py:168-184: opening the file empties it, each block is written when it comes. Of the hash table only finished hashes are represented. -/
def receiveFileSt {H : Type} (sha : Bytes → H) (st : RecvState H) (ws : List Bytes) : RecvState H × Except PyErr (List Bytes) :=
  match recv ws with
  | .error e => (st, .error e)
  | .ok (h, ws) =>
    match decodeHeader h LEN_FILES_HEADER with
    | .error e => (st, .error e)
    | .ok [.int numBlocks, .str filename] =>
      if isFileName (basename filename) then
        match writeBlocks numBlocks.toNat [] ws with
        | (data, .error e) => (⟨upd st.dir (basename filename) data, st.hashes⟩, .error e)
        | (data, .ok ws) => (⟨upd st.dir (basename filename) data, upd st.hashes (basename filename) (sha data)⟩, .ok ws)
      else (st, .error .isADirectoryError)
    | .ok _ => (st, .error .valueError)

/-- `receive_files`, communication_utils.py:157-184, with the state in which an exception leaves the directory. -/
def receiveFilesSt {H : Type} (sha : Bytes → H) : Nat → RecvState H → List Bytes → RecvState H × Except PyErr (List Bytes)
  | 0, st, ws => (st, .ok ws)
  | n + 1, st, ws =>
    match receiveFileSt sha st ws with
    | (st, .error e) => (st, .error e)
    | (st, .ok ws) => receiveFilesSt sha n st ws

theorem writeBlocks_spec : ∀ (n : Nat) (acc : Bytes) (ws : List Bytes),
    match recvMany n ws with
    | .ok (data, rest) => writeBlocks n acc ws = (acc ++ data, .ok rest)
    | .error e => ∃ k, writeBlocks n acc ws = (acc ++ (ws.take k).flatten, .error e)
  | 0, acc, ws => by simp [recvMany, writeBlocks]
  | n + 1, acc, ws => by
    unfold recvMany writeBlocks
    cases hr : recv ws with
    | error e => exact ⟨0, by simp⟩
    | ok p =>
      obtain ⟨b, ws1⟩ := p
      have hws : ws = b :: ws1 := by
        cases ws with
        | nil => cases hr
        | cons x xs => cases hr; rfl
      have ih := writeBlocks_spec n (acc ++ b) ws1
      cases hm : recvMany n ws1 with
      | error e =>
        rw [hm] at ih
        simp only [bind, Except.bind, hm]
        obtain ⟨k, hk⟩ := ih
        exact ⟨k + 1, by rw [hk, hws]; simp⟩
      | ok q =>
        obtain ⟨data, rest⟩ := q
        rw [hm] at ih
        simp only [bind, Except.bind, hm]
        rw [ih]
        simp

/-- One file: as before if it succeeds; if not, at most one file is changed, to what has come of it. -/
theorem receiveFileSt_spec {H : Type} (sha : Bytes → H) (st : RecvState H) (ws : List Bytes) :
    match receiveFile sha st ws with
    | .ok (st', rest) => receiveFileSt sha st ws = (st', .ok rest)
    | .error e => ∃ st', receiveFileSt sha st ws = (st', .error e) ∧ st'.hashes = st.hashes ∧
        (st'.dir = st.dir ∨ ∃ p k, isFileName (basename p) = true ∧ st'.dir = upd st.dir (basename p) (((ws.drop 1).take k).flatten)) := by
  unfold receiveFile receiveFileSt
  cases hr : recv ws with
  | error e => exact ⟨st, by simp, rfl, .inl rfl⟩
  | ok p =>
    obtain ⟨h, ws1⟩ := p
    have hws : ws.drop 1 = ws1 := by
      cases ws with
      | nil => cases hr
      | cons x xs => cases hr; rfl
    simp only [bind, Except.bind]
    cases hd : decodeHeader h LEN_FILES_HEADER with
    | error e => exact ⟨st, by simp, rfl, .inl rfl⟩
    | ok els =>
      simp only []
      split
      · rename_i heq
        split at heq
        · rename_i num fn
          split at heq
          · rename_i hf
            have hspec := writeBlocks_spec num.toNat [] ws1
            cases hm : recvMany num.toNat ws1 with
            | error e => rw [hm] at heq; cases heq
            | ok q =>
              rw [hm] at heq hspec
              simp only [List.nil_append] at hspec
              dsimp only
              rw [if_pos hf, hspec]
              cases heq
              rfl
          · cases heq
        · cases heq
      · rename_i heq
        split at heq
        · rename_i num fn
          split at heq
          · rename_i hf
            have hspec := writeBlocks_spec num.toNat [] ws1
            cases hm : recvMany num.toNat ws1 with
            | error e =>
              rw [hm] at heq hspec
              cases heq
              obtain ⟨k, hk⟩ := hspec
              simp only [List.nil_append] at hk
              dsimp only
              rw [if_pos hf, hk]
              exact ⟨_, rfl, rfl, .inr ⟨fn, k, hf, by rw [hws]⟩⟩
            | ok q => rw [hm] at heq; cases heq
          · rename_i hf
            cases heq
            dsimp only
            rw [if_neg hf]
            exact ⟨st, rfl, rfl, .inl rfl⟩
        · rename_i hne
          cases heq
          split
          · rename_i heq2
            cases heq2
          · rename_i num fn heq2
            cases heq2
            exact absurd rfl (hne num fn)
          · exact ⟨st, rfl, rfl, .inl rfl⟩

/-- **C59**, failing included: whatever frames come, and however receiving ends, only entries directly inside the target directory are changed. -/
theorem files_confined_always {H : Type} (sha : Bytes → H) : ∀ (n : Nat) (st : RecvState H) (ws : List Bytes) (name : String),
    (receiveFilesSt sha n st ws).1.dir name ≠ st.dir name → '/' ∉ name.toList ∧ name ≠ "" ∧ name ≠ "." ∧ name ≠ ".."
  | 0, st, ws, name, h => absurd rfl h
  | n + 1, st, ws, name, h => by
    have hspec := receiveFileSt_spec sha st ws
    unfold receiveFilesSt at h
    cases hr : receiveFile sha st ws with
    | error e =>
      rw [hr] at hspec
      obtain ⟨st', h1, -, h2⟩ := hspec
      rw [h1] at h
      rcases h2 with h2 | ⟨p, k, hf, h2⟩
      · exact absurd (by rw [h2]) h
      · dsimp only at h
        rw [h2] at h
        unfold upd at h
        split at h
        · rename_i he
          subst he
          exact ⟨basename_no_slash p, by simpa [isFileName] using hf⟩
        · exact absurd rfl h
    | ok q =>
      obtain ⟨st1, ws1⟩ := q
      rw [hr] at hspec
      dsimp only at hspec
      rw [hspec] at h
      dsimp only at h
      by_cases h1 : st1.dir name = st.dir name
      · rw [← h1] at h
        exact files_confined_always sha n st1 ws1 name h
      · refine files_confined sha 1 st st1 ws ws1 ?_ name h1
        simp only [receiveFiles, bind, Except.bind, hr]

/-- Following the directory changes nothing when receiving succeeds. -/
theorem receiveFilesSt_ok {H : Type} (sha : Bytes → H) : ∀ (n : Nat) (st st' : RecvState H) (ws rest : List Bytes),
    receiveFiles sha n st ws = .ok (st', rest) ↔ receiveFilesSt sha n st ws = (st', .ok rest)
  | 0, st, st', ws, rest => by simp [receiveFiles, receiveFilesSt]
  | n + 1, st, st', ws, rest => by
    have hspec := receiveFileSt_spec sha st ws
    unfold receiveFiles receiveFilesSt
    cases hr : receiveFile sha st ws with
    | error e =>
      rw [hr] at hspec
      obtain ⟨st1, h1, -⟩ := hspec
      rw [h1]
      simp [bind, Except.bind]
    | ok q =>
      obtain ⟨st1, ws1⟩ := q
      rw [hr] at hspec
      dsimp only at hspec
      rw [hspec]
      simp only [bind, Except.bind]
      exact receiveFilesSt_ok sha n st1 st' ws1 rest

/-- When it fails, some files were received completely, and one more may hold what has come of it so far. -/
theorem files_halfway {H : Type} (sha : Bytes → H) : ∀ (n : Nat) (st st' : RecvState H) (ws : List Bytes) (e : PyErr), receiveFilesSt sha n st ws = (st', .error e) →
    ∃ k st1 ws1, k < n ∧ receiveFiles sha k st ws = .ok (st1, ws1) ∧ st'.hashes = st1.hashes ∧
      (st'.dir = st1.dir ∨ ∃ p j, isFileName (basename p) = true ∧ st'.dir = upd st1.dir (basename p) (((ws1.drop 1).take j).flatten))
  | 0, st, st', ws, e, h => by simp [receiveFilesSt] at h
  | n + 1, st, st', ws, e, h => by
    have hspec := receiveFileSt_spec sha st ws
    unfold receiveFilesSt at h
    cases hr : receiveFile sha st ws with
    | error e1 =>
      rw [hr] at hspec
      obtain ⟨st1, h1, h2⟩ := hspec
      rw [h1] at h
      cases h
      exact ⟨0, st, ws, Nat.succ_pos n, rfl, h2⟩
    | ok q =>
      obtain ⟨st1, ws1⟩ := q
      rw [hr] at hspec
      dsimp only at hspec
      rw [hspec] at h
      obtain ⟨k, st2, ws2, a, b, c⟩ := files_halfway sha n st1 st' ws1 e h
      refine ⟨k + 1, st2, ws2, Nat.succ_lt_succ a, ?_, c⟩
      simp only [receiveFiles, bind, Except.bind, hr]
      exact b

/-- Example: the header of a file `x` with two blocks, and a client that goes away after the first. -/
def cut : List Bytes := match encodeHeader [.int 2, .str "../x"] LEN_FILES_HEADER with
  | .ok h => [h, [1, 2]]
  | .error _ => []

/-- A file that is cut off stays, with what has come of it, inside the directory whatever the name. -/
theorem cut_example : (receiveFilesSt (fun b => b.length) 1 ⟨fun _ => none, fun _ => none⟩ cut).1.dir "x" = some [1, 2] ∧
    (receiveFilesSt (fun b => b.length) 1 ⟨fun _ => none, fun _ => none⟩ cut).1.dir "../x" = none ∧
    (receiveFilesSt (fun b => b.length) 1 ⟨fun _ => none, fun _ => none⟩ cut).2.toOption = none := by
  decide +kernel

end Osp.Wire
