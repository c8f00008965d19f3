import Verif.Frames.Props
/-!
# When the files of the connections are separate
-/
namespace Osp.Frames
open Osp.Wire

variable {S H : Type} [DecidableEq H] {b : Backend S} {sha : Bytes → H}

/-- Every path belongs to one connection; serving a connection, or its leaving, changes only files that belong to it and answers with files that belong to
it. Specification. -/
structure Private (b : Backend S) (own : String → Conn) : Prop where
  handle : ∀ s c command data dir p, own p ≠ c → b.read (b.handle s c command data dir).1 p = b.read s p
  leave : ∀ s c p, own p ≠ c → b.read (b.leave s c) p = b.read s p
  answer : ∀ s c command data dir, ∀ p ∈ (b.handle s c command data dir).2.2, own p = c

/-- Proof device; nothing in /repo. -/
def Owned (own : String → Conn) (pos : Conn → Option Pos) : Prop := ∀ d p, pos d = some p → ∀ f ∈ p.unread, own f = d

/-- What a step of `c` may do. Proof device; nothing in /repo. -/
def Okay (b : Backend S) (own : String → Conn) (c : Conn) (s : S) (w : World S H) : Prop :=
  (∀ f, own f ≠ c → b.read w.srv f = b.read s f) ∧ Owned own w.pos

omit [DecidableEq H] in
theorem owned_put {own : String → Conn} {pos : Conn → Option Pos} {c : Conn} {p : Pos} (h : ∀ d q, d ≠ c → pos d = some q → ∀ f ∈ q.unread, own f = d)
    (hp : ∀ f ∈ p.unread, own f = c) : Owned own (put pos c (some p)) := by
  intro d q hq f hf
  by_cases hd : d = c
  · subst hd
    rw [put_same] at hq
    cases hq
    exact hp f hf
  · rw [put_other _ _ hd] at hq
    exact h d q hd hq f hf

omit [DecidableEq H] in
theorem finish_okay {own : String → Conn} (hp : Private b own) {c : Conn} {s : S} {w : World S H} (h : ∀ f, own f ≠ c → b.read w.srv f = b.read s f)
    (ho : ∀ d q, d ≠ c → w.pos d = some q → ∀ f ∈ q.unread, own f = d) : Okay b own c s (finish b c w) :=
  ⟨fun f hf => (hp.leave w.srv c f hf).trans (h f hf), owned_put ho (fun f hf => by cases hf)⟩

omit [DecidableEq H] in
theorem send_okay {own : String → Conn} (hp : Private b own) {c : Conn} {s : S} {w : World S H} (x : Bytes) (p : Pos) (h : ∀ f, own f ≠ c → b.read w.srv f = b.read s f)
    (ho : ∀ d q, d ≠ c → w.pos d = some q → ∀ f ∈ q.unread, own f = d) (hf : ∀ f ∈ p.unread, own f = c) : Okay b own c s (send b c x p w) := by
  unfold send
  cases w.closed c with
  | true => exact finish_okay hp h ho
  | false => exact ⟨h, owned_put ho hf⟩

omit [DecidableEq H] in
theorem nextOut_okay {own : String → Conn} (hp : Private b own) {c : Conn} {s : S} {w : World S H} (files : List String) (h : ∀ f, own f ≠ c → b.read w.srv f = b.read s f)
    (ho : ∀ d q, d ≠ c → w.pos d = some q → ∀ f ∈ q.unread, own f = d) (hf : ∀ f ∈ files, own f = c) : Okay b own c s (nextOut b c w files) := by
  cases files with
  | nil => exact ⟨h, owned_put ho (fun f hf => by cases hf)⟩
  | cons p ps =>
    simp only [nextOut]
    split
    · exact finish_okay hp h ho
    · split
      · exact finish_okay hp h ho
      · exact send_okay hp _ _ h ho hf

theorem answer_okay {own : String → Conn} (hp : Private b own) {c : Conn} {w : World S H} (r : Request H)
    (ho : ∀ d q, d ≠ c → w.pos d = some q → ∀ f ∈ q.unread, own f = d) : Okay b own c w.srv (answer b sha c r w) := by
  have h1 : ∀ f, own f ≠ c → b.read (b.handle w.srv c r.command r.data r.st.dir).1 f = b.read w.srv f := fun f hf => hp.handle _ _ _ _ _ f hf
  simp only [answer]
  split
  · exact finish_okay hp h1 ho
  · refine send_okay hp _ _ h1 ho ?_
    intro f hf
    simp only [Pos.unread, List.mem_map] at hf
    obtain ⟨g, hg, rfl⟩ := hf
    have := (filterFiles_sublist sha _ _).subset hg
    simp only [existing, List.mem_filterMap, List.mem_map, id] at this
    obtain ⟨o, ⟨p, hpm, rfl⟩, ho'⟩ := this
    simp only [onDisk] at ho'
    obtain ⟨x, _, rfl⟩ := Option.map_eq_some_iff.1 ho'
    exact hp.answer _ _ _ _ _ p hpm

theorem resume_okay {own : String → Conn} (hp : Private b own) {w : World S H} (c : Conn) (ho : Owned own w.pos) : Okay b own c w.srv (resume b sha c w) := by
  have ho' : ∀ d q, d ≠ c → w.pos d = some q → ∀ f ∈ q.unread, own f = d := fun d q _ => ho d q
  have h0 : ∀ f, own f ≠ c → b.read w.srv f = b.read w.srv f := fun _ _ => rfl
  unfold resume
  split
  · exact ⟨h0, ho⟩
  · exact ⟨h0, ho⟩
  · split
    · split
      · exact finish_okay hp h0 ho'
      · exact ⟨h0, ho⟩
    · simp only
      split
      · exact ⟨h0, owned_put ho' (fun f hf => by cases hf)⟩
      · exact finish_okay hp h0 ho'
      · exact answer_okay (w := { w with inbox := _ }) hp _ ho'
  · rename_i hpos
    exact send_okay hp _ _ h0 ho' (fun f hf => ho c _ hpos f hf)
  · rename_i hpos
    exact nextOut_okay hp _ h0 ho' (fun f hf => ho c _ hpos f hf)
  · rename_i hpos
    split
    · exact nextOut_okay hp _ h0 ho' (fun f hf => ho c _ hpos f (List.mem_cons_of_mem _ hf))
    · exact send_okay hp _ _ h0 ho' (fun f hf => ho c _ hpos f hf)

theorem step_okay {own : String → Conn} (hp : Private b own) {w : World S H} (e : Ev) (ho : Owned own w.pos) : Okay b own e.conn w.srv (step b sha w e) := by
  cases e with
  | connect c =>
    simp only [step]
    split
    · exact ⟨fun _ _ => rfl, owned_put (fun d q _ => ho d q) (fun f hf => by cases hf)⟩
    · exact ⟨fun _ _ => rfl, ho⟩
  | arrive c f => exact ⟨fun _ _ => rfl, ho⟩
  | close c => exact ⟨fun _ _ => rfl, ho⟩
  | resume c => exact resume_okay hp c ho

/-- **C100** (separate files): if every connection has its own files, no schedule disturbs the sending of a file. -/
theorem private_undisturbed (b : Backend S) (sha : Bytes → H) (own : String → Conn) (hp : Private b own) (s : S) (es : List Ev) :
    Undisturbed b sha (World.init s) es := by
  have h0 : Owned own (World.init s : World S H).pos := fun d p h => by cases h
  generalize (World.init s : World S H) = w at h0 ⊢
  induction es generalizing w with
  | nil => trivial
  | cons e es ih =>
    have h1 := step_okay (sha := sha) hp e h0
    exact ⟨fun d p hd hpos f hf => h1.1 f (by rw [h0 d p hpos f hf]; exact hd), ih _ h1.2⟩

end Osp.Frames
