import Verif.Frames.Spec
import Verif.Wire.Props
/-!
# Receiving frame by frame is decoding the list of frames
-/
namespace Osp.Frames
open Osp.Wire

/-- Receive the remaining files and return. Proof device; nothing in /repo. -/
def restFiles {H : Type} (sha : Bytes → H) (command data : String) (left : Nat) (st : RecvState H) (ws : List Bytes) :
    Except PyErr (Request H × List Bytes) :=
  match receiveFiles sha left st ws with
  | .error e => .error e
  | .ok (st, ws) => .ok (⟨command, data, st⟩, ws)

/-- The message is complete. Proof device; nothing in /repo. -/
def restMessage {H : Type} (sha : Bytes → H) (command : String) (acc : Bytes) (files : Nat) (hs : Table H) (ws : List Bytes) :
    Except PyErr (Request H × List Bytes) :=
  match unutf8 acc with
  | some s => restFiles sha command s files ⟨fun _ => none, hs⟩ ws
  | none => .error .unicodeDecodeError

/-- What the list-based decoder does from a place in the middle of a request. Proof device; nothing in /repo. -/
def cont {H : Type} (sha : Bytes → H) (hs : Table H) : Rx → List Bytes → Except PyErr (Request H × List Bytes)
  | .header, ws => serverDecode sha ⟨fun _ => none, hs⟩ ws
  | .blocks command k acc files, ws =>
    match recvMany (k + 1) ws with
    | .error e => .error e
    | .ok (d, ws) => restMessage sha command (acc ++ d) files hs ws
  | .fileHeader command data left dir, ws => restFiles sha command data (left + 1) ⟨dir, hs⟩ ws
  | .fileBlocks command data left dir name k acc, ws =>
    match recvMany (k + 1) ws with
    | .error e => .error e
    | .ok (d, ws) => restFiles sha command data left ⟨upd dir name (acc ++ d), upd hs name (sha (acc ++ d))⟩ ws

/-- What the list-based decoder does after a frame was fed. Proof device; nothing in /repo. -/
def Fed.cont {H : Type} (sha : Bytes → H) (ws : List Bytes) : Fed H → Except PyErr (Request H × List Bytes)
  | .wait hs r => Frames.cont sha hs r ws
  | .ready r => .ok (r, ws)
  | .fail e => .error e

theorem nextFile_cont {H : Type} (sha : Bytes → H) (command data : String) (n : Nat) (st : RecvState H) (ws : List Bytes) :
    (nextFile command data n st).cont sha ws = restFiles sha command data n st ws := by
  cases n with
  | zero => rfl
  | succ n => rfl

theorem gotMessage_cont {H : Type} (sha : Bytes → H) (command : String) (acc : Bytes) (files : Nat) (hs : Table H) (ws : List Bytes) :
    (gotMessage command acc files hs).cont sha ws = restMessage sha command acc files hs ws := by
  unfold gotMessage restMessage
  cases unutf8 acc with
  | none => rfl
  | some s => exact nextFile_cont ..

theorem serverDecode_cons {H : Type} (sha : Bytes → H) (hs : Table H) (f : Bytes) (ws : List Bytes) :
    serverDecode sha ⟨fun _ => none, hs⟩ (f :: ws) = (feed sha hs .header f).cont sha ws := by
  unfold serverDecode feed
  simp only [recv, bind, Except.bind]
  cases decodeHeader f LEN_HEADER with
  | error e => rfl
  | ok els =>
    simp only
    split
    · rename_i version numBlocks numFiles command
      simp only
      split
      · rfl
      · simp only [joinMessage, bind, Except.bind]
        have hm : ∀ d ws', restMessage sha command d numFiles.toNat hs ws' = match unutf8 d with
            | none => .error .unicodeDecodeError
            | some s => match receiveFiles sha numFiles.toNat ⟨fun _ => none, hs⟩ ws' with
              | .error e => .error e
              | .ok v1 => .ok (⟨command, s, v1.1⟩, v1.2) := by
          intro d ws'
          unfold restMessage restFiles
          cases unutf8 d with
          | none => rfl
          | some s => cases receiveFiles sha numFiles.toNat ⟨fun _ => none, hs⟩ ws' <;> rfl
        cases hk : numBlocks.toNat with
        | zero =>
          simp only [recvMany, gotMessage_cont, hm]
          cases unutf8 ([] : Bytes) with
          | none => rfl
          | some s => simp only; cases receiveFiles sha numFiles.toNat ⟨fun _ => none, hs⟩ ws <;> rfl
        | succ k =>
          simp only [Fed.cont, cont, hm, List.nil_append]
          cases recvMany (k + 1) ws with
          | error e => rfl
          | ok v =>
            simp only
            cases unutf8 v.1 with
            | none => rfl
            | some s => simp only; cases receiveFiles sha numFiles.toNat ⟨fun _ => none, hs⟩ v.2 <;> rfl
    · rename_i hne
      split
      · rename_i heq; cases heq
      · rename_i heq; exact absurd (Except.ok.inj heq) (hne _ _ _ _)
      · rfl

theorem receiveFiles_cons {H : Type} (sha : Bytes → H) (command data : String) (left : Nat) (dir : Dir) (hs : Table H) (f : Bytes) (ws : List Bytes) :
    restFiles sha command data (left + 1) ⟨dir, hs⟩ (f :: ws) = (feed sha hs (.fileHeader command data left dir) f).cont sha ws := by
  unfold restFiles feed
  simp only [receiveFiles, receiveFile, recv, bind, Except.bind]
  cases decodeHeader f LEN_FILES_HEADER with
  | error e => rfl
  | ok els =>
    by_cases he : ∃ n s, els = [.int n, .str s]
    · obtain ⟨numBlocks, filename, rfl⟩ := he
      simp only
      by_cases hf : isFileName (basename filename) = true
      · simp only [hf, ↓reduceIte]
        cases hk : numBlocks.toNat with
        | zero => simp only [recvMany, nextFile_cont, restFiles]
        | succ k =>
          simp only [Fed.cont, cont, List.nil_append, restFiles]
          cases recvMany (k + 1) ws with
          | error e => rfl
          | ok v => rfl
      · simp only [hf]; rfl
    · simp only
      split
      · rename_i e heq
        split at heq
        · rename_i e' heq2
          split at heq2
          · exact absurd ⟨_, _, rfl⟩ he
          · cases heq; cases heq2
            split
            · rename_i heq; cases heq
            · rename_i heq; exact absurd ⟨_, _, Except.ok.inj heq⟩ he
            · rfl
        · rename_i v heq2
          split at heq2
          · exact absurd ⟨_, _, rfl⟩ he
          · cases heq2
      · rename_i st ws' heq
        split at heq
        · cases heq
        · rename_i v heq2
          split at heq2
          · exact absurd ⟨_, _, rfl⟩ he
          · cases heq2

theorem recvMany_succ (k : Nat) (f : Bytes) (ws : List Bytes) :
    recvMany (k + 1) (f :: ws) = match recvMany k ws with
      | .error e => .error e
      | .ok (d, ws) => .ok (f ++ d, ws) := by
  simp only [recvMany, recv, bind, Except.bind]
  cases recvMany k ws <;> rfl

/-- Receiving one frame and going on is decoding the list that begins with this frame. -/
theorem feed_cont {H : Type} (sha : Bytes → H) (hs : Table H) (r : Rx) (f : Bytes) (ws : List Bytes) :
    cont sha hs r (f :: ws) = (feed sha hs r f).cont sha ws := by
  cases r with
  | header => exact serverDecode_cons ..
  | blocks command k acc files =>
    simp only [cont, recvMany_succ]
    cases k with
    | zero => simp only [recvMany, List.append_nil]; exact (gotMessage_cont ..).symm
    | succ k =>
      simp only [feed, Fed.cont, cont]
      cases recvMany (k + 1) ws with
      | error e => rfl
      | ok v => simp only [List.append_assoc]
  | fileHeader command data left dir => exact receiveFiles_cons ..
  | fileBlocks command data left dir name k acc =>
    simp only [cont, recvMany_succ]
    cases k with
    | zero => simp only [recvMany, List.append_nil]; exact (nextFile_cont ..).symm
    | succ k =>
      simp only [feed, Fed.cont, cont]
      cases recvMany (k + 1) ws with
      | error e => rfl
      | ok v => simp only [List.append_assoc]

end Osp.Frames
