import Verif.Links.Props
/-!
# Links after a reload: examples and the cases that go wrong (C102)
-/
namespace Osp.Links
open Osp.Sess
open Osp.Multi (Tidy)

/-- Example: a triple below 100 is an attribute or a type; 100 + v is a relationship (true) to v, 200 + v its inverse (false). -/
def code : Code Bool := fun k => if k < 100 then none else some (k / 100 == 1, k % 100)
/-- Example: the two relationships are inverse to each other. -/
def back : Bool → Bool := not
/-- Example: what the model of sessions leaves open. -/
def params : Params := ⟨fun _ _ => [], fun _ => [], fun c => c.filter (· < 10), id, fun _ _ => Iff.rfl⟩
/-- Example: the parameters with the differences of links. -/
def P1 : Params := withLinks code params

/-- Example: the database the session has read: the wrapper 9 (slot 0), and 1, 2, 3 with a link from 1 to 2. -/
def before : Uid → Content := fun u => match u with
  | 0 => {5}
  | 1 => {10, 102}
  | 2 => {20, 201}
  | 3 => {30}
  | _ => ∅

/-- Example: another session took that link away, linked 1 to 3, and deleted nothing. -/
def after : Uid → Content := fun u => match u with
  | 0 => {5}
  | 1 => {10, 103}
  | 2 => {20}
  | 3 => {30, 201}
  | _ => ∅

/-- Example: another session deleted object 1. -/
def without : Uid → Content := fun u => match u with
  | 0 => {5}
  | 2 => {20}
  | 3 => {30}
  | _ => ∅

/-- Example: a session that has loaded all of the first database. -/
def loaded : St := Sess.run P1 (St.opened before) [.create 9 {5}, .commit none, .load [1, 2, 3]]

/-- Example: a session in front of another database. -/
def front (s : St) (db : Uid → Content) : St := { s with db := db }

/-- Example: all links of an object, by computation. -/
def links (s : St) (u : Uid) : List (Bool × Uid) := (elems (s.g u)).filterMap code

/-- Example: the wrapper is 9, objects 1, 2 and 3 are there with what is stored, nothing is changed, and only the wrapper (which was expired by the commit) is expired. -/
theorem loaded_is : loaded.reg = [9, 1, 2, 3] ∧ loaded.user.uids = [] ∧ loaded.root = some 9 ∧ loaded.expired = [9] ∧ loaded.ctx = .user ∧ loaded.g 1 = {10, 102} ∧ loaded.g 2 = {20, 201} ∧
    loaded.g 3 = {30} := by decide +kernel

instance (c : Content) (r : Bool) (v : Uid) : Decidable (Has code c r v) := inferInstanceAs (Decidable (∃ k ∈ c, code k = some (r, v)))
instance (u v : Uid) (cu cv : Content) : Decidable (Agree code back u v cu cv) :=
  decidable_of_iff ((Has code cu true v ↔ Has code cv false u) ∧ (Has code cv true u ↔ Has code cu false v) ∧ (Has code cu false v ↔ Has code cv true u) ∧ (Has code cv false u ↔ Has code cu true v)) (by
    unfold Agree back
    constructor
    · rintro ⟨a, b, c, d⟩ (_ | _)
      · exact ⟨c, d⟩
      · exact ⟨a, b⟩
    · intro h
      exact ⟨(h true).1, (h true).2, (h false).1, (h false).2⟩)

theorem coherent_of {s : St} (h1 : s.reg = [9, 1, 2, 3]) (h3 : s.root = some 9) (h6 : s.g 1 = {10, 102}) (h7 : s.g 2 = {20, 201}) (h8 : s.g 3 = {30}) : Coherent code back s := by
  intro u v hu hv hpu hpv _ _
  have nu : u ≠ 9 := fun e => hpu (by rw [e]; exact h3)
  have nv : v ≠ 9 := fun e => hpv (by rw [e]; exact h3)
  rw [h1] at hu hv
  have cu : u = 1 ∨ u = 2 ∨ u = 3 := by simpa [nu] using hu
  have cv : v = 1 ∨ v = 2 ∨ v = 3 := by simpa [nv] using hv
  rcases cu with rfl | rfl | rfl <;> rcases cv with rfl | rfl | rfl <;> simp only [h6, h7, h8] <;> decide +kernel

theorem looking_of {s : St} (h1 : s.reg = [9, 1, 2, 3]) (h2 : s.user.uids = []) : Looking P1 s [.expire [1, 3], .load [1, 3], .read 2, .refresh [1, 2], .expireAll, .read 1] := by
  refine ⟨trivial, ?_, trivial, trivial, trivial, trivial, trivial⟩
  intro u hu
  show u ∈ s.reg ∧ u ∈ (s.expire [1, 3]).2.expired
  have hr : u ∈ s.reg := by
    rw [h1]
    simp at hu
    rcases hu with rfl | rfl <;> simp
  exact ⟨hr, (mem_expire s _ u).2 ⟨.inr ⟨hu, by rw [h2]; simp⟩, hr⟩⟩

theorem sound_of {s : St} (hs : s.db = after) : Sound code back s := by
  intro u v hpu hpv
  have hst : ∀ w, Plain s w → s.stored w = after w := by
    intro w hw
    unfold St.stored St.slot
    rw [if_neg hw, hs]
  rw [hst u hpu, hst v hpv]
  clear hpu hpv
  revert u v
  show ∀ u v : Nat, Agree code back u v (after u) (after v)
  intro u v
  have big : ∀ w : Nat, 4 ≤ w → after w = ∅ := by
    intro w hw
    match w, hw with
    | w + 4, _ => rfl
  have none : ∀ (w x : Nat), 4 ≤ w → ∀ r, ¬ Has code (after x) r w := by
    intro w x hw r
    rintro ⟨k, hk, e⟩
    have : x < 4 := by
      by_contra hc
      rw [big x (by omega)] at hk
      simp at hk
    have hx : x = 0 ∨ x = 1 ∨ x = 2 ∨ x = 3 := by omega
    rcases hx with rfl | rfl | rfl | rfl <;> simp [after] at hk <;> (try rcases hk with rfl | rfl) <;> simp [code] at e <;> (obtain ⟨-, e⟩ := e; have e : _ = w := e; omega)
  have hnone : ∀ (w x : Nat), 4 ≤ w → ∀ r, ¬ Has code (after w) r x := by
    intro w x hw r
    rintro ⟨k, hk, -⟩
    rw [big w hw] at hk
    simp at hk
  by_cases hu : 4 ≤ u
  · exact fun r => ⟨⟨fun h => absurd h (hnone u v hu _), fun h => absurd h (none u v hu _)⟩, ⟨fun h => absurd h (none u v hu _), fun h => absurd h (hnone u v hu _)⟩⟩
  · by_cases hv : 4 ≤ v
    · exact fun r => ⟨⟨fun h => absurd h (none v u hv _), fun h => absurd h (hnone v u hv _)⟩, ⟨fun h => absurd h (hnone v u hv _), fun h => absurd h (none v u hv _)⟩⟩
    · have cu : u = 0 ∨ u = 1 ∨ u = 2 ∨ u = 3 := by omega
      have cv : v = 0 ∨ v = 1 ∨ v = 2 ∨ v = 3 := by omega
      rcases cu with rfl | rfl | rfl | rfl <;> rcases cv with rfl | rfl | rfl | rfl <;> decide +kernel

/-- The premises of `links_agree_partial` are met: the session that has loaded 1, 2 and 3, in front of the changed database. -/
theorem premises : ∃ s, s = { loaded with db := after } ∧ s.root ≠ none ∧ Tidy s ∧ s.ctx = .user ∧ Coherent code back s ∧ Sound code back s ∧
    Looking P1 s [.expire [1, 3], .load [1, 3], .read 2, .refresh [1, 2], .expireAll, .read 1] := by
  obtain ⟨h1, h2, h3, h4, h5, h6, h7, h8⟩ := loaded_is
  obtain ⟨t1, t2⟩ := reached P1 before after [.create 9 {5}, .commit none, .load [1, 2, 3]] (by
    intro o ho
    simp only [List.mem_cons, List.not_mem_nil, or_false] at ho
    rcases ho with rfl | rfl | rfl <;> exact trivial)
  rw [← loaded] at t1 t2
  generalize loaded = l at *
  exact ⟨_, rfl, by rw [h3]; simp, t1, t2, coherent_of h1 h3 h6 h7 h8, sound_of rfl, looking_of h1 h2⟩

/-- Expire 1 and read it: 2, which lost the link, and 3, which gained one, expire; reading them completes the picture. -/
theorem refresh_example :
    let s := Sess.run P1 (front loaded after) [.expire [1], .read 1]
    links s 1 = [(true, 3)] ∧ s.expired = [9, 3, 2] ∧ links (Sess.run P1 s [.read 2, .read 3]) 2 = [] ∧ links (Sess.run P1 s [.read 2, .read 3]) 3 = [(false, 1)] := by
  decide +kernel

/-- An object deleted by another session: who had a link to it expires. -/
theorem deleted_example :
    let s := Sess.run P1 (front loaded without) [.expire [1], .read 1]
    s.reg = [9, 2, 3] ∧ s.expired = [9, 2] ∧ links (Sess.run P1 s [.read 2]) 2 = [] := by
  decide +kernel

/-- Finding: an object loaded for the first time lets nobody expire. The session has not loaded 3 when another session links it to 1; then it loads 3. Object 3 shows a link to 1, and 1, which is not expired,
shows none to 3, only the one to 2 that is gone. -/
theorem new_object_half_link :
    let s0 := Sess.run P1 (St.opened before) [.create 9 {5}, .commit none, .load [1, 2]]
    let s := Sess.run P1 (front s0 after) [.load [3]]
    links s 3 = [(false, 1)] ∧ links s 1 = [(true, 2)] ∧ 1 ∉ s.expired ∧ 3 ∉ s.expired ∧ s.user.uids = [] := by
  decide +kernel

/-- Finding: objects that are loaded in the same call are never expired, although only those of them that are expired are loaded: 1 is loaded again and is linked to 3, and 3 is neither loaded nor expired. -/
theorem mixed_load_half_link :
    let s := Sess.run P1 (front loaded after) [.expire [1], .load [1, 3]]
    links s 1 = [(true, 3)] ∧ links s 3 = [] ∧ 1 ∉ s.expired ∧ 3 ∉ s.expired ∧ s.user.uids = [] := by
  decide +kernel

/-- Example: a database in which the wrapper has a link to 1. -/
def linked : Uid → Content := fun u => match u with
  | 0 => {5, 101}
  | 1 => {10, 209}
  | _ => ∅
/-- Example: the same without the link. -/
def unlinked : Uid → Content := fun u => match u with
  | 0 => {5}
  | 1 => {10}
  | _ => ∅

/-- Finding: loading the wrapper again lets nobody expire: the wrapper has lost its link to 1, and 1 still shows it. -/
theorem wrapper_half_link :
    let s0 := Sess.run P1 (St.opened linked) [.create 9 {5, 101}, .commit none, .load [1], .read 9]
    let s := Sess.run P1 (front s0 unlinked) [.expire [9], .read 9]
    links s0 9 = [(true, 1)] ∧ links s0 1 = [(false, 9)] ∧ links s 9 = [] ∧ links s 1 = [(false, 9)] ∧ 1 ∉ s.expired ∧ 9 ∉ s.expired ∧ s.user.uids = [] := by
  decide +kernel

/-- Finding: a link that comes and goes. 1 and 3 are not linked; a link comes, 1 is read, 3 expires; the link goes, 3 is read: it has not changed since it was last loaded, so 1 does not expire and still shows the
link. All views were in agreement at the start, and each database was. -/
theorem come_and_go_half_link :
    let s1 := Sess.run P1 (front loaded after) [.expire [1], .read 1]
    let s := Sess.run P1 (front s1 before) [.read 3]
    links s 1 = [(true, 3)] ∧ links s 3 = [] ∧ 1 ∉ s.expired ∧ 3 ∉ s.expired ∧ s.user.uids = [] := by
  decide +kernel

end Osp.Links
