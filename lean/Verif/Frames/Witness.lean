import Verif.Frames.Live
/-!
# Connections side by side: a concrete case, and a file changed while it is sent
-/
namespace Osp.Frames
open Osp.Wire

/-- A backend for the examples: the state is the list of the commands served. There is one file on the disk, one byte long until the command `put` is served and empty
afterwards; `get` answers with it. Example. -/
def toy : Backend (List (Conn × String)) where
  handle s c command data _ := (s ++ [(c, command)], data, if command = "get" then ["/srv/f"] else [])
  leave s c := s ++ [(c, "gone")]
  read s p := if p = "/srv/f" then some (if s.any (fun x => x.2 = "put") then [] else [7]) else none

/-- The frames of a request without files. Example. -/
def req (command data : String) : List Bytes := (clientEncode command data []).frames

/-- All frames of a request arrive. Example. -/
def arrive (c : Conn) (fs : List Bytes) : List Ev := fs.map (Ev.arrive c)

/-- Two connections whose frames and coroutines are mixed: the request of the second is complete first. Example. -/
def mixed : List Ev :=
  [.connect 1, .connect 2] ++ arrive 1 (req "one" "a") ++ [.resume 1] ++ arrive 2 (req "two" "b") ++
    [.resume 2, .resume 2, .resume 1, .resume 2, .resume 1, .resume 2, .resume 1]

/-- Example. -/
def sha0 (b : Bytes) : Bytes := b

theorem mixed_served : (run toy sha0 (World.init []) mixed).srv = [(2, "two"), (1, "one")] ∧
    (run toy sha0 (World.init []) mixed).log = [.serve 2, .serve 1] := by
  constructor <;> decide +kernel

/-- A backend with a file for each of two connections, which `put` changes: an example for the hypotheses of `client_served_in_full`. The answer depends on what was served
before. Example. -/
def desk : Backend (List (Conn × String)) where
  handle s c command _ _ := (s ++ [(c, command)], if s = [] then "first" else "later",
    if command = "get" then (if c = 1 then ["/srv/1"] else if c = 2 then ["/srv/2"] else []) else [])
  leave s c := s ++ [(c, "gone")]
  read s p := if p = "/srv/1" then some (if s.any (fun x => x = (1, "put")) then [8] else [7])
    else if p = "/srv/2" then some (if s.any (fun x => x = (2, "put")) then [8] else [7]) else none

theorem desk_fits : Fits desk := by
  intro s c command data dir
  refine ⟨?_, ?_, ?_⟩
  · by_cases h : s = []
    · simp only [desk, h, ↓reduceIte]; decide +kernel
    · simp only [desk, h, ↓reduceIte]; decide +kernel
  · simp only [desk]
    split
    · split
      · decide
      · split <;> decide
    · decide
  · intro p hp x hx
    have hp' : p = "/srv/1" ∨ p = "/srv/2" := by
      simp only [desk] at hp
      split at hp
      · split at hp
        · exact Or.inl (List.mem_singleton.1 hp)
        · split at hp
          · exact Or.inr (List.mem_singleton.1 hp)
          · cases hp
      · cases hp
    have hx' : x = [7] ∨ x = [8] := by
      rcases hp' with rfl | rfl
      · simp only [desk, ↓reduceIte, Option.some.injEq] at hx
        subst hx
        split
        · exact Or.inr rfl
        · exact Or.inl rfl
      · simp only [desk, ↓reduceIte, Option.some.injEq, String.reduceEq] at hx
        subst hx
        split
        · exact Or.inr rfl
        · exact Or.inl rfl
    rcases hp' with rfl | rfl <;> rcases hx' with rfl | rfl <;> decide +kernel

theorem desk_private : Private desk (fun p => if p = "/srv/1" then 1 else if p = "/srv/2" then 2 else 3) := by
  refine ⟨?_, ?_, ?_⟩
  · intro s c command data dir p hp
    by_cases h1 : p = "/srv/1"
    · subst h1
      simp only [↓reduceIte] at hp
      have : ¬ (1 = c ∧ "put" = command) := fun h => hp h.1
      simp [desk, this]
    · by_cases h2 : p = "/srv/2"
      · subst h2
        have : ¬ (2 = c ∧ "put" = command) := fun h => hp (by simp [← h.1])
        simp [desk, this]
      · simp [desk, h1, h2]
  · intro s c p hp
    simp [desk]
  · intro s c command data dir p hp
    simp only [desk] at hp
    split at hp
    · split at hp
      · rename_i h; rw [List.mem_singleton.1 hp, h]; rfl
      · split at hp
        · rename_i h; rw [List.mem_singleton.1 hp, h]; rfl
        · cases hp
    · cases hp

/-- The hypotheses of `client_served_in_full` are met by the mixed schedule, with a malformed frame of a third connection in between. -/
example : ∃ n q, seqRun desk sha0 (Seq.init [] (fun d => arrivals d ([.connect 3, .arrive 3 [1]] ++ mixed))) (run desk sha0 (World.init []) (([.connect 3, .arrive 3 [1]] ++ mixed) ++ List.replicate n (.resume 1))).log = some q ∧
    seen 1 q.hist = meant [("one", "a", [])] ∧
    clientLoop sha0 1 ((run desk sha0 (World.init []) (([.connect 3, .arrive 3 [1]] ++ mixed) ++ List.replicate n (.resume 1))).out 1) = .ok (answers 1 q.hist, []) := by
  obtain ⟨n, q, h1, _, h3, h4⟩ := client_served_in_full desk sha0 desk_fits _ desk_private [] ([.connect 3, .arrive 3 [1]] ++ mixed) 1
    (by simp [mixed]) (by simp [mixed, arrive]) [("one", "a", [])]
    (by intro r hr; rw [List.mem_singleton.1 hr]; exact ⟨by decide, by decide +kernel, by decide, by simp⟩) (by decide +kernel)
  exact ⟨n, q, h1, h3, h4⟩

/-- The first connection asks for the file; after the header of the file was sent, the second connection's request changes it. Example. -/
def race : List Ev :=
  [.connect 1, .connect 2] ++ arrive 1 (req "get" "") ++ arrive 2 (req "put" "") ++
    [.resume 1, .resume 1, .resume 2, .resume 1]

/-- The first connection goes on with another request. Example. -/
def after : List Ev := race ++ arrive 1 (req "more" "") ++ [.resume 1, .resume 1]

/-- Whether the connection waits for a request. Example. -/
def waits {S H : Type} (w : World S H) (c : Conn) : Bool :=
  match w.pos c with
  | some (.rx .header) => true
  | _ => false

/-- Observation: the condition of `client_gets_its_answers` is needed. The header of the file announces one block, but when the file is read it is empty: for the
server the answer is complete, the client waits for another frame; and the header of the next answer is then stored as the content of the file. From then
on every answer is misread. -/
theorem torn_file :
    waits (run toy sha0 (World.init []) race) 1 = true ∧
    (clientDecode sha0 (fun _ => none) ((run toy sha0 (World.init []) race).out 1)).map (fun x => x.1) = .error .connectionClosed ∧
    waits (run toy sha0 (World.init []) after) 1 = true ∧
    (clientDecode sha0 (fun _ => none) ((run toy sha0 (World.init []) after).out 1)).map (fun x => (x.1, x.2.1 "f", x.2.2)) =
      .ok ("", some [0, 1, 0, 0, 0, 0, 0, 0, 0], []) ∧
    encodeHeader [.int VERSION, .int 0, .int 0] LEN_HEADER = .ok [0, 1, 0, 0, 0, 0, 0, 0, 0] ∧
    (run toy sha0 (World.init []) after).log = [.serve 1, .serve 2, .serve 1] := by
  refine ⟨by decide +kernel, by decide +kernel, by decide +kernel, by decide +kernel, by decide +kernel, by decide +kernel⟩

end Osp.Frames
