import Verif.Lemmas.Opening
import Verif.Lemmas.Material

/-! Transfers an accepted session to an envelope with counterpart signets. -/

namespace Jess

open Requirements

theorem foldl_const_length {α β γ : Type} (f : γ → γ) : ∀ (as : List α) (bs : List β) (r : γ), as.length = bs.length →
    as.foldl (fun r _ => f r) r = bs.foldl (fun r _ => f r) r
  | [], [], _, _ => rfl
  | [], _ :: _, _, h => by simp at h
  | _ :: _, [], _, h => by simp at h
  | _ :: as, _ :: bs, r, h => by
    simp only [List.foldl_cons]
    exact foldl_const_length f as bs (f r) (by simpa using h)

/-- Same levels of corresponding signets. -/
def SameLevels (P : Prims) (cfg : Config) (t : Option ToolInst) (as bs : List Signet) : Prop :=
  All2 (fun x y => calcLevel P cfg t (some x) = calcLevel P cfg t (some y)) as bs

theorem signetsFor_isSome (e e' : Envelope) (i : ToolInst) : (signetsFor e i).isSome = (signetsFor e' i).isSome := by
  unfold signetsFor; cases i.info.purpose <;> rfl

theorem newSession_transfer {P : Prims} {cfg : Config} {e e' : Envelope} {s : Session} (h : newSession P cfg e = .ok s)
    (hsuite : e'.suite = e.suite) (hl0 : e'.securityLevel = 0)
    (hlev : demandedLevel cfg 0 ≤ demandedLevel cfg e.securityLevel)
    (hsig : ∀ i ∈ s.insts, SameLevels P cfg (some i) ((signetsFor e i).getD []) ((signetsFor e' i).getD []))
    (hkey : SameLevels P cfg none (keySecrets e) (keySecrets e'))
    (hcount : e'.secrets.length + e'.senders.length + e'.recipients.length ≤ e.secrets.length + e.senders.length + e.recipients.length) :
    newSession P cfg e' = .ok { s with env := e' } := by
  obtain ⟨suite, is, lv, h1, h2, h3, h4, hm, h5, h6, h7, h8, hs, n1, n2, hf⟩ := (newSession_ok_iff P cfg e s).mp h
  have hins : s.insts = is := by rw [hs]; rfl
  rw [hins] at hsig
  have hts : ∀ is : List ToolInst, (∀ i ∈ is, SameLevels P cfg (some i) ((signetsFor e i).getD []) ((signetsFor e' i).getD [])) →
      All2 (fun (x y : ToolInst × Signet) => calcLevel P cfg (some x.1) (some x.2) = calcLevel P cfg (some y.1) (some y.2))
        (toolSignets e is) (toolSignets e' is) := by
    intro is
    induction is with
    | nil => intro _; exact .nil
    | cons i is ih =>
      intro hi
      have h1 : toolSignets e (i :: is) = ((signetsFor e i).getD []).map (fun s => (i, s)) ++ toolSignets e is := rfl
      have h2 : toolSignets e' (i :: is) = ((signetsFor e' i).getD []).map (fun s => (i, s)) ++ toolSignets e' is := rfl
      rw [h1, h2]
      refine All2.append ?_ (ih fun j hj => hi j (by simp [hj]))
      rw [All2.map_left, All2.map_right]
      exact hi i (by simp)
  have hts' := hts is hsig
  have hlen : (toolSignets e is).length = (toolSignets e' is).length := hts'.length
  have hklen : (keySecrets e).length = (keySecrets e').length := hkey.length
  let lv' : LevelLists P cfg e' is :=
    { tools := lv.tools, signets := lv.signets, keys := lv.keys, htools := lv.htools,
      hsignets := by rw [← lv.hsignets]; exact (All2.map_eq hts').symm,
      hkeys := by rw [← lv.hkeys]; exact (All2.map_eq hkey).symm }
  have hall : lv'.all = lv.all := rfl
  have hreqs : addKeyReqs e' = addKeyReqs e := by
    funext r
    exact foldl_const_length (fun r => (r.add SenderAuthentication).add RecipientAuthentication) _ _ r hklen.symm
  have hmk : ({ s with env := e' } : Session) = mkSession cfg e' suite is lv'.all := by
    rw [hs, hall]; simp only [mkSession, hreqs]
  rw [newSession_ok_iff]
  refine ⟨suite, is, lv', by rw [hsuite, h1], ?_, ?_, h4, hm, h5, h6, ?_, ?_, hmk, ?_, ?_, ?_⟩
  · rw [hl0]; intro h; exact absurd h (by decide)
  · rw [hl0]; omega
  · intro c hc
    rw [hall] at hc
    rw [hl0]
    have := h7 c hc
    unfold LevelOK at *
    omega
  · intro i hi hn
    have := (hsig i hi).length
    rw [hn] at this
    have hs1 : (signetsFor e i).isSome = true := by rw [signetsFor_isSome e e' i, hn]; rfl
    cases hse : signetsFor e i with
    | none => rw [hse] at hs1; cases hs1
    | some l =>
      rw [hse] at this
      simp at this
      exact h8 i hi (by rw [hse, this])
  · exact n1
  · exact n2
  · rw [finalChecks_ok_iff] at hf ⊢
    obtain ⟨f1, f2, f3, f4, f5, f6, f7, f8, f9⟩ := hf
    have henv : s.env = e := by rw [hs]; rfl
    rw [henv] at f8 f9
    refine ⟨f1, f2, f3, f4, f5, f6, ?_, ?_, ?_⟩
    · intro hi
      have := f7 hi
      unfold keySourceAvailable at this ⊢
      rw [Bool.or_eq_true] at this ⊢
      rcases this with h | h
      · left
        rw [List.any_eq_true] at h ⊢
        obtain ⟨x, hx, hxs⟩ := h
        exact ⟨x, hx, by rw [signetsFor_isSome e' e]; exact hxs⟩
      · right
        cases hk : keySecrets e' with
        | nil =>
          rw [hk] at hklen
          have := List.length_eq_zero_iff.mp hklen
          rw [this] at h; simp at h
        | cons _ _ => rfl
    · dsimp only
      rw [← hlen, ← hklen]
      omega
    · dsimp only
      rw [hl0]; omega

/-- Levels of counterparts are the same: keys. -/
theorem calcLevel_key {P : Prims} {cfg : Config} {t : Option ToolInst} {a b : Signet} (ha : a.scheme = schemeKey)
    (hb : b.scheme = schemeKey) (hk : b.key = a.key) : calcLevel P cfg t (some a) = calcLevel P cfg t (some b) := by
  simp [calcLevel, ha, hb, hk]

theorem calcLevel_pw {P : Prims} {cfg : Config} {t : Option ToolInst} {a b : Signet} (ha : a.scheme = schemePassword)
    (hb : b.scheme = schemePassword) (hk : b.key = a.key) : calcLevel P cfg t (some a) = calcLevel P cfg t (some b) := by
  simp [calcLevel, ha, hb, hk]

theorem calcLevel_tool {P : Prims} {cfg : Config} {t : ToolInst} {a b : Signet} (h : b.scheme = a.scheme)
    (hk : a.scheme ≠ schemeKey) (hp : a.scheme ≠ schemePassword) (hl : a.loadedPub.isSome = true) (hpub : b.loadedPub = a.loadedPub) :
    calcLevel P cfg (some t) (some a) = calcLevel P cfg (some t) (some b) := by
  simp only [calcLevel, h, hk, hp, if_false, ToolInst.secLevel]
  split
  · simp only [rsaSignetLevel, Signet.load, hpub, hl, if_true, ok_bind]
  · rfl

/-- Splitting a concatenation of groups of signets by scheme gives back the groups. -/
theorem regroup (g : ToolInst → List Signet) : ∀ (ts : List ToolInst), (ts.map (·.info.name)).Nodup →
    (∀ t ∈ ts, t.info.name ≠ []) → (∀ t ∈ ts, ∀ k ∈ g t, k.scheme = t.info.name) →
    ∀ t ∈ ts, ofScheme (ts.flatMap g) t.info.name = g t := by
  intro ts
  induction ts with
  | nil => intro _ _ _ t ht; simp at ht
  | cons a ts ih =>
    intro hnd hne hg t ht
    rw [List.map_cons, List.nodup_cons] at hnd
    have hsplit : ofScheme ((a :: ts).flatMap g) t.info.name = ofScheme (g a) t.info.name ++ ofScheme (ts.flatMap g) t.info.name := by
      simp [ofScheme]
    have hemp : t.info.name.isEmpty = false := by
      cases hn : t.info.name with
      | nil => exact absurd hn (hne t ht)
      | cons _ _ => rfl
    rw [hsplit]
    rcases List.mem_cons.mp ht with rfl | ht'
    · have h1 : ofScheme (g t) t.info.name = g t := by
        unfold ofScheme
        rw [List.filter_eq_self]
        intro k hk; simp [hg t (by simp) k hk]
      have h2 : ofScheme (ts.flatMap g) t.info.name = [] := by
        unfold ofScheme
        rw [List.filter_eq_nil_iff]
        intro k hk
        obtain ⟨b, hb, hkb⟩ := List.mem_flatMap.mp hk
        have := hg b (by simp [hb]) k hkb
        simp only [hemp, Bool.false_or, beq_iff_eq]
        intro h
        exact hnd.1 (by rw [← h, this]; exact List.mem_map_of_mem hb)
      rw [h1, h2, List.append_nil]
    · have h1 : ofScheme (g a) t.info.name = [] := by
        unfold ofScheme
        rw [List.filter_eq_nil_iff]
        intro k hk
        have := hg a (by simp) k hk
        simp only [hemp, Bool.false_or, beq_iff_eq]
        intro h
        exact hnd.1 (by rw [← this, h]; exact List.mem_map_of_mem ht')
      rw [h1, List.nil_append]
      exact ih hnd.2 (fun x hx => hne x (by simp [hx])) (fun x hx => hg x (by simp [hx])) t ht'

end Jess
