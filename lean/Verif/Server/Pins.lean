import Verif.Server.Model
/-!
# With which arguments a session is constructed (C09)
-/
namespace Osp.Server

variable {S D A R H : Type}

/-- **C09.** A server that fixes the arguments of its sessions accepts only clients that give none: a client with arguments gets a ValueError, and a request without the two
entries a KeyError. A server that does not fix them uses those of the client. -/
theorem newSession_exact (k : Cls S D A R H) (cfg : Option (List (Text × D))) (x : InitData D) (c : Conn) (user : List (Text × KwVal D)) (hu : userKwargs k x c = .ok user) :
    (x.args = none → newSession k cfg x c = .error .keyError) ∧
    (∀ p ps, cfg = some (p :: ps) →
      (∀ a as, x.args = some (a :: as) → newSession k cfg x c = .error .valueError) ∧
      (x.args = some [] → x.kwargs = none → newSession k cfg x c = .error .keyError) ∧
      (∀ q qs, x.args = some [] → x.kwargs = some (q :: qs) → newSession k cfg x c = .error .valueError) ∧
      (x.args = some [] → x.kwargs = some [] → newSession k cfg x c = match merge ((p :: ps).map (fun p => (p.1, KwVal.data p.2))) user with
        | .error e => .error e
        | .ok kw => k.construct [] kw)) ∧
    (cfg = none ∨ cfg = some [] →
      (x.kwargs = none → newSession k cfg x c = .error .keyError) ∧
      (∀ args kw, x.args = some args → x.kwargs = some kw → newSession k cfg x c = match merge (kw.map (fun p => (p.1, KwVal.data p.2))) user with
        | .error e => .error e
        | .ok kw => k.construct args kw)) := by
  refine ⟨fun h => ?_, fun p ps hc => ⟨fun a as h => ?_, fun h1 h2 => ?_, fun q qs h1 h2 => ?_, fun h1 h2 => ?_⟩, ?_⟩
  · cases cfg with
    | none => simp only [newSession, hu, h]
    | some l => cases l <;> simp only [newSession, hu, h]
  · simp only [newSession, hu, hc, h]
  · simp only [newSession, hu, hc, h1, h2]
  · simp only [newSession, hu, hc, h1, h2]
  · simp only [newSession, hu, hc, h1, h2]
    rfl
  · rintro (rfl | rfl)
    · refine ⟨fun h => ?_, fun args kw h1 h2 => ?_⟩
      · cases ha : x.args <;> simp only [newSession, hu, h, ha]
      · simp only [newSession, hu, h1, h2]
        rfl
    · refine ⟨fun h => ?_, fun args kw h1 h2 => ?_⟩
      · cases ha : x.args <;> simp only [newSession, hu, h, ha]
      · simp only [newSession, hu, h1, h2]
        rfl

/-- **C09.** A session that wants authentication cannot be constructed by a request without it: KeyError. -/
theorem newSession_no_auth (k : Cls S D A R H) (cfg : Option (List (Text × D))) (x : InitData D) (c : Conn) (hk : k.wantsAuth = true) (ha : x.auth = none) :
    newSession k cfg x c = .error .keyError := by
  have : userKwargs k x c = .error .keyError := by simp only [userKwargs, hk, if_true, ha]
  simp only [newSession, this]

/-- **C09.** A request without hashes, or from a connection the server has no hashes of, raises a KeyError. -/
theorem newHashes_missing (k : Cls S D A R H) (h : Option H) (hd : Option D) (hm : h = none ∨ hd = none) : newHashes k h hd = .error .keyError := by
  rcases hm with rfl | rfl
  · rfl
  · cases h <;> rfl

end Osp.Server
