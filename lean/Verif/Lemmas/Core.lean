import Verif.Model.LetterOps
import Verif.Lemmas.Basic

/-! Lemmas about closing and opening. -/

namespace Jess

/-! ## Tool states -/

/-- A session state between two operations: one unused state per tool, empty hashers. -/
structure Clean (s : Session) (st : SState) : Prop where
  len : st.tools.length = s.stateful.length
  unused : ∀ t ∈ st.tools, t.used = false
  fed : st.fed = []

theorem clean_init (s : Session) : Clean s s.initState := by
  refine ⟨by simp [Session.initState], ?_, rfl⟩
  intro t ht
  simp only [Session.initState, List.mem_map] at ht
  obtain ⟨_, _, rfl⟩ := ht
  rfl

theorem setupTool_used {P : Prims} {s : Session} {k t : ToolInst} {nonce : Bytes} {mat : List Bytes} {off : Nat}
    {o st : ToolState} {off' : Nat} (h : setupTool P s k nonce mat off t o = .ok (st, off')) : st.used = o.used := by
  unfold setupTool at h
  split at h
  · cases h
  · split at h
    · cases h
    · simp only [Except.ok.injEq, Prod.mk.injEq] at h
      rw [← h.1]

theorem setupTool_congr {P : Prims} {s s' : Session} {k t : ToolInst} {nonce : Bytes} {mat : List Bytes} {off : Nat}
    {o o' : ToolState} (hk : s.keySize = s'.keySize) (hu : o.used = o'.used) :
    setupTool P s k nonce mat off t o = setupTool P s' k nonce mat off t o' := by
  simp only [setupTool, setupNonce, Session.toolKeySize, Session.toolNonceSize, hk, hu]

theorem setupTools_spec (P : Prims) (s s' : Session) (k : ToolInst) (nonce : Bytes) (mat : List Bytes) (hk : s.keySize = s'.keySize) :
    ∀ (ts : List ToolInst) (off : Nat) (os os' : List ToolState), os.length = ts.length → os'.length = ts.length →
      (∀ t ∈ os, t.used = false) → (∀ t ∈ os', t.used = false) →
      (setupTools P s k nonce mat off ts os).2 = (setupTools P s' k nonce mat off ts os').2 ∧
      ((setupTools P s k nonce mat off ts os).2 = .ok () →
        (setupTools P s k nonce mat off ts os).1 = (setupTools P s' k nonce mat off ts os').1) ∧
      (setupTools P s k nonce mat off ts os).1.length = ts.length ∧
      (∀ t ∈ (setupTools P s k nonce mat off ts os).1, t.used = false) := by
  intro ts
  induction ts with
  | nil =>
    intro off os os' h1 h2 h3 h4
    simp [setupTools]
  | cons t ts ih =>
    intro off os os' h1 h2 h3 h4
    cases os with
    | nil => simp at h1
    | cons o os =>
      cases os' with
      | nil => simp at h2
      | cons o' os' =>
        simp only [List.length_cons, Nat.add_right_cancel_iff] at h1 h2
        have hu : o.used = o'.used := by rw [h3 o (by simp), h4 o' (by simp)]
        have hc := setupTool_congr (P := P) (s := s) (s' := s') (k := k) (t := t) (nonce := nonce) (mat := mat) (off := off) hk hu
        simp only [setupTools, ← hc]
        cases hs : setupTool P s k nonce mat off t o with
        | error e => exact ⟨rfl, by simp, by simpa using h1, h3⟩
        | ok r =>
          obtain ⟨st, off'⟩ := r
          simp only
          have hst := setupTool_used hs
          obtain ⟨i1, i2, i3, i4⟩ := ih off' os os' h1 h2 (fun x hx => h3 x (by simp [hx])) (fun x hx => h4 x (by simp [hx]))
          refine ⟨i1, fun h => by rw [i2 h], by simp [i3], ?_⟩
          intro x hx
          rcases List.mem_cons.mp hx with rfl | hx
          · rw [hst]; exact h3 o (by simp)
          · exact i4 x hx

theorem reset_unused (t : ToolState) : t.reset.used = false := rfl

/-- Encrypting from a clean state: the result is that of a fresh session, and the state is clean again. -/
theorem encryptLetter_clean {P : Prims} {s : Session} {st : SState} (hc : Clean s st) (k : ToolInst) (mat : List Bytes)
    (off : Nat) (l : Letter) (data : Bytes) :
    Clean s (encryptLetter P s st k mat off l data).1 ∧
    (encryptLetter P s st k mat off l data).2 = (encryptLetter P s s.initState k mat off l data).2 := by
  have hi := clean_init s
  obtain ⟨h1, h2, h3, h4⟩ := setupTools_spec P s s k l.nonce mat rfl s.stateful off st.tools s.initState.tools hc.len hi.len
    hc.unused hi.unused
  unfold encryptLetter
  generalize hx : setupTools P s k l.nonce mat off s.stateful st.tools = x at *
  generalize hy : setupTools P s k l.nonce mat off s.stateful s.initState.tools = y at *
  obtain ⟨xt, xr⟩ := x
  obtain ⟨yt, yr⟩ := y
  simp only at h1 h2 h3 h4
  subst h1
  cases xr with
  | error e => exact ⟨⟨h3, h4, hc.fed⟩, rfl⟩
  | ok u =>
    refine ⟨⟨by simp [Session.resetTools, Session.markUsed, h3], ?_, hc.fed⟩, by rw [h2 rfl]⟩
    intro t ht
    obtain ⟨_, _, rfl⟩ := List.mem_map.mp ht
    rfl

theorem decryptLetter_clean {P : Prims} {s : Session} {st : SState} (hc : Clean s st) (k : ToolInst) (mat : List Bytes)
    (off : Nat) (l : Letter) :
    Clean s (decryptLetter P s st k mat off l).1 ∧
    (decryptLetter P s st k mat off l).2 = (decryptLetter P s s.initState k mat off l).2 := by
  have hi := clean_init s
  obtain ⟨h1, h2, h3, h4⟩ := setupTools_spec P s s k l.nonce mat rfl s.stateful off st.tools s.initState.tools hc.len hi.len
    hc.unused hi.unused
  unfold decryptLetter
  generalize hx : setupTools P s k l.nonce mat off s.stateful st.tools = x at *
  generalize hy : setupTools P s k l.nonce mat off s.stateful s.initState.tools = y at *
  obtain ⟨xt, xr⟩ := x
  obtain ⟨yt, yr⟩ := y
  simp only at h1 h2 h3 h4
  subst h1
  cases xr with
  | error e => exact ⟨⟨h3, h4, hc.fed⟩, rfl⟩
  | ok u =>
    refine ⟨⟨by simp [Session.resetTools, Session.markUsed, h3], ?_, hc.fed⟩, by rw [h2 rfl]⟩
    intro t ht
    obtain ⟨_, _, rfl⟩ := List.mem_map.mp ht
    rfl

theorem signLetter_clean {P : Prims} {rng : Rng} {s : Session} {st : SState} (hc : Clean s st) (ctr : Nat) (ad : Bytes) (l : Letter) :
    Clean s (signLetter P rng s st ctr ad l).1 ∧
    ∀ st', Clean s st' → (signLetter P rng s st ctr ad l).2 = (signLetter P rng s st' ctr ad l).2 := by
  unfold signLetter
  split
  · exact ⟨hc, fun _ _ => rfl⟩
  · exact ⟨⟨hc.len, hc.unused, rfl⟩, fun st' h' => by simp only [hc.fed, h'.fed]⟩

theorem checkSignatures_clean {P : Prims} {s : Session} {st : SState} (hc : Clean s st) (l : Letter) :
    Clean s (checkSignatures P s st l).1 ∧
    (checkSignatures P s st l).2 = (checkSignatures P s s.initState l).2 := by
  unfold checkSignatures
  split
  · exact ⟨hc, rfl⟩
  · exact ⟨⟨hc.len, hc.unused, rfl⟩, by simp only [hc.fed, (clean_init s).fed]⟩

/-- Closing from a clean state: the result is that of a fresh session, and the state is clean again. -/
theorem close_clean {P : Prims} {cfg : Config} {rng : Rng} {s : Session} {st : SState} (hc : Clean s st) (data : Bytes) :
    Clean s (s.close P cfg rng st data).1 ∧ (s.close P cfg rng st data).2 = (s.close P cfg rng s.initState data).2 := by
  unfold Session.close
  split
  · exact ⟨hc, rfl⟩
  · rename_i nonce hn
    dsimp only
    split
    · split
      · exact ⟨hc, rfl⟩
      · obtain ⟨h1, h2⟩ := signLetter_clean (P := P) (rng := rng) hc 1 []
          ({ version := s.env.version, suiteID := s.env.suiteID, nonce := nonce, data := data } : Letter)
        exact ⟨h1, h2 _ (clean_init s)⟩
    · rename_i k hk
      split
      · exact ⟨hc, rfl⟩
      · rename_i km hkm
        split
        · obtain ⟨h1, h2⟩ := encryptLetter_clean (P := P) hc k km.material 0
            ({ version := s.env.version, suiteID := s.env.suiteID, nonce := nonce, keys := km.keys } : Letter) data
          obtain ⟨g1, _⟩ := encryptLetter_clean (P := P) (clean_init s) k km.material 0
            ({ version := s.env.version, suiteID := s.env.suiteID, nonce := nonce, keys := km.keys } : Letter) data
          generalize encryptLetter P s st k km.material 0 _ data = x at *
          generalize encryptLetter P s s.initState k km.material 0 _ data = y at *
          obtain ⟨xs, xr⟩ := x
          obtain ⟨ys, yr⟩ := y
          simp only at h1 h2 g1
          subst h2
          cases xr with
          | error e => exact ⟨h1, rfl⟩
          | ok l' =>
            obtain ⟨a1, a2⟩ := signLetter_clean (P := P) (rng := rng) h1 km.ctr (s.adOf l') l'
            exact ⟨a1, a2 _ g1⟩
        · exact ⟨hc, rfl⟩

theorem open_clean {P : Prims} {cfg : Config} {s : Session} {st : SState} (hc : Clean s st) (l : Letter) :
    Clean s (s.open P cfg st l).1 ∧ (s.open P cfg st l).2 = (s.open P cfg s.initState l).2 := by
  unfold Session.open
  split
  · exact ⟨hc, rfl⟩
  · obtain ⟨h1, h2⟩ := checkSignatures_clean (P := P) hc l
    obtain ⟨g1, _⟩ := checkSignatures_clean (P := P) (clean_init s) l
    generalize checkSignatures P s st l = x at *
    generalize checkSignatures P s s.initState l = y at *
    obtain ⟨xs, xr⟩ := x
    obtain ⟨ys, yr⟩ := y
    simp only at h1 h2 g1
    subst h2
    cases xr with
    | error e => exact ⟨h1, rfl⟩
    | ok u =>
      dsimp only
      split
      · split <;> exact ⟨h1, rfl⟩
      · rename_i k hk
        split
        · exact ⟨h1, rfl⟩
        · rename_i mat hm
          split
          · obtain ⟨a1, a2⟩ := decryptLetter_clean (P := P) h1 k mat 0 l
            obtain ⟨_, b2⟩ := decryptLetter_clean (P := P) g1 k mat 0 l
            exact ⟨a1, by rw [a2, b2]⟩
          · exact ⟨h1, rfl⟩

theorem verify_clean {P : Prims} {s : Session} {st : SState} (hc : Clean s st) (l : Letter) :
    Clean s (s.verify P st l).1 ∧ (s.verify P st l).2 = (s.verify P s.initState l).2 := by
  unfold Session.verify
  split
  · exact ⟨hc, rfl⟩
  · split
    · exact ⟨hc, rfl⟩
    · exact checkSignatures_clean hc l

end Jess
