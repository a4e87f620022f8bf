import Verif.Lemmas.Transfer
import Verif.Lemmas.Levels

/-! An accepted session stays accepted, if the envelope demands the level that the session has. -/

namespace Jess

open Requirements

/-- A signet that can replace another one: it has the same level, or at least the given one. -/
def AsStrong (P : Prims) (cfg : Config) (L : Int) (t : Option ToolInst) (x y : Signet) : Prop :=
  calcLevel P cfg t (some x) = calcLevel P cfg t (some y) ∨ ∃ c, calcLevel P cfg t (some y) = .ok c ∧ L ≤ c

/-- How the calculated levels change. -/
def RaisedTo (L : Int) (c c' : Int) : Prop := c' = c ∨ L ≤ c'

/-- The levels of the replaced signets. -/
theorem raised_levels {α : Type} {P : Prims} {cfg : Config} {L : Int} (f : α → Option ToolInst) (g : α → Signet) :
    ∀ {xs ys : List α} {cs : List Int}, All2 (fun x y => f x = f y ∧ AsStrong P cfg L (f x) (g x) (g y)) xs ys →
      xs.map (fun x => calcLevel P cfg (f x) (some (g x))) = cs.map Except.ok →
      ∃ ds : List Int, ys.map (fun x => calcLevel P cfg (f x) (some (g x))) = ds.map Except.ok ∧ All2 (RaisedTo L) cs ds
  | [], _, cs, h, hc => by
    cases h
    cases cs with
    | nil => exact ⟨[], rfl, .nil⟩
    | cons _ _ => simp at hc
  | x :: xs, _, cs, h, hc => by
    cases h with
    | @cons _ y _ ys hxy hr =>
      cases cs with
      | nil => simp at hc
      | cons c cs =>
        simp only [List.map_cons, List.cons.injEq] at hc
        obtain ⟨ds, h1, h2⟩ := raised_levels f g hr hc.2
        rcases hxy.2 with h | ⟨d, hd, hL⟩
        · refine ⟨c :: ds, ?_, .cons (Or.inl rfl) h2⟩
          simp only [List.map_cons, List.cons.injEq]
          exact ⟨by rw [← hxy.1, ← h]; exact hc.1, h1⟩
        · refine ⟨d :: ds, ?_, .cons (Or.inr hL) h2⟩
          simp only [List.map_cons, List.cons.injEq]
          exact ⟨by rw [← hxy.1]; exact hd, h1⟩

/-- The level of the session does not fall below `L`. -/
theorem raised_session_level {L : Int} {cs ds : List Int} (h : All2 (RaisedTo L) cs ds) (hL : 0 < L) (hc : ∀ c ∈ cs, 0 ≤ c)
    (hcL : ∀ c ∈ cs, c ≠ 0 → L ≤ c) :
    (∀ d ∈ ds, d = 0 ∨ L ≤ d) ∧ ((∃ c ∈ cs, c ≠ 0) → L ≤ (levelsOf ds).level) := by
  have h1 : ∀ d ∈ ds, d = 0 ∨ L ≤ d := by
    intro d hd
    obtain ⟨c, hc1, h⟩ := h.mem_right hd
    rcases h with rfl | h
    · by_cases h0 : d = 0
      · exact Or.inl h0
      · exact Or.inr (hcL d hc1 h0)
    · exact Or.inr h
  refine ⟨h1, ?_⟩
  rintro ⟨c, hc1, hne⟩
  obtain ⟨d, hd, hcd⟩ := h.mem_left hc1
  have hd0 : d ≠ 0 := by
    rcases hcd with rfl | h
    · exact hne
    · omega
  rcases levelsOf_level ds (fun d hd => by rcases h1 d hd with h | h <;> omega) with ⟨h2, _⟩ | ⟨h2, h3, _⟩
  · exact absurd (h2 d hd) hd0
  · rcases h1 _ h3 with h | h <;> omega

/-- A session of level `s.level` is also accepted, if the envelope demands that level, and its signets are replaced by signets that are
as strong. -/
theorem newSession_raise {P : Prims} {cfg : Config} {e e' : Envelope} {s : Session} (h : newSession P cfg e = .ok s)
    (hsuite : e'.suite = e.suite) (hlev : e'.securityLevel = s.level) (hpos : 0 < s.level)
    (hsu : s.level ≤ s.suite.securityLevel)
    (hsig : ∀ i ∈ s.insts, All2 (AsStrong P cfg s.level (some i)) ((signetsFor e i).getD []) ((signetsFor e' i).getD []))
    (hkey : All2 (AsStrong P cfg s.level none) (keySecrets e) (keySecrets e'))
    (hcount : e'.secrets.length + e'.senders.length + e'.recipients.length ≤ e.secrets.length + e.senders.length + e.recipients.length) :
    ∃ s', newSession P cfg e' = .ok s' ∧ s.level ≤ s'.level ∧ s'.env = e' ∧ s'.insts = s.insts := by
  obtain ⟨suite, is, lv, h1, h2, h3, h4, hm, h5, h6, h7, h8, hs, n1, n2, hf⟩ := (newSession_ok_iff P cfg e s).mp h
  have hins : s.insts = is := by rw [hs]; rfl
  have hsuq : s.suite = suite := by rw [hs]; rfl
  rw [hins] at hsig
  rw [hsuq] at hsu
  have hts : ∀ is : List ToolInst, (∀ i ∈ is, All2 (AsStrong P cfg s.level (some i)) ((signetsFor e i).getD []) ((signetsFor e' i).getD [])) →
      All2 (fun (x y : ToolInst × Signet) => some x.1 = some y.1 ∧ AsStrong P cfg s.level (some x.1) x.2 y.2)
        (toolSignets e is) (toolSignets e' is) := by
    intro is
    induction is with
    | nil => intro _; exact .nil
    | cons i is ih =>
      intro hi
      have h1 : toolSignets e (i :: is) = ((signetsFor e i).getD []).map (fun s => (i, s)) ++ toolSignets e is := rfl
      have h2 : toolSignets e' (i :: is) = ((signetsFor e' i).getD []).map (fun s => (i, s)) ++ toolSignets e' is := rfl
      rw [h1, h2]
      refine All2.append ?_ (ih fun j hj => hi j (by simp [hj]))
      rw [All2.map_left, All2.map_right]
      exact (hi i (by simp)).mono fun a b hab => ⟨rfl, hab⟩
  have hts' := hts is hsig
  have hlen : (toolSignets e is).length = (toolSignets e' is).length := hts'.length
  have hklen : (keySecrets e).length = (keySecrets e').length := hkey.length
  obtain ⟨ds, hds, hrs⟩ := raised_levels (fun (x : ToolInst × Signet) => some x.1) (fun x => x.2) hts' lv.hsignets
  obtain ⟨dk, hdk, hrk⟩ := raised_levels (fun (_ : Signet) => none) (fun x => x)
    (hkey.mono fun a b hab => ⟨rfl, hab⟩) lv.hkeys
  have htl : ∀ cs : List Int, All2 (RaisedTo s.level) cs cs := by
    intro cs
    induction cs with
    | nil => exact .nil
    | cons c cs ih => exact .cons (Or.inl rfl) ih
  let lv' : LevelLists P cfg e' is :=
    { tools := lv.tools, signets := ds, keys := dk, htools := lv.htools, hsignets := hds, hkeys := hdk }
  have hall : All2 (RaisedTo s.level) lv.all lv'.all := ((htl lv.tools).append hrs).append hrk
  have hnn : ∀ c ∈ lv.all, 0 ≤ c := fun c hc => by
    rcases h7 c hc with h | h <;> omega
  have hslev : s.level = if cfg.minLevel > 0 ∧ cfg.minLevel > (levelsOf lv.all).level then cfg.minLevel else (levelsOf lv.all).level := by
    rw [hs]; rfl
  -- the levels, against the level of the session
  have hmin : cfg.minLevel > 0 → demandedLevel cfg s.level = cfg.minLevel := fun h => by unfold demandedLevel; simp [h]
  have hnomin : ¬ cfg.minLevel > 0 → demandedLevel cfg s.level = s.level := fun h => by unfold demandedLevel; simp [h, hpos]
  have hdle : demandedLevel cfg s.level ≤ s.level := by
    by_cases hm : cfg.minLevel > 0
    · rw [hmin hm, hslev]; split <;> omega
    · rw [hnomin hm]; omega
  have hok : ∀ d ∈ lv'.all, LevelOK cfg s.level d := by
    intro d hd
    obtain ⟨c, hc, hcd⟩ := hall.mem_right hd
    rcases hcd with rfl | hcd
    · rcases h7 d hc with h | ⟨h, h'⟩
      · exact Or.inl h
      · refine Or.inr ⟨h, ?_⟩
        by_cases hm : cfg.minLevel > 0
        · rw [hmin hm]; unfold demandedLevel at h'; simpa [hm] using h'
        · rw [hnomin hm]
          rcases levelsOf_level lv.all hnn with ⟨h1, _⟩ | ⟨_, _, h3⟩
          · have := h1 d hc; omega
          · have := h3 d hc (by omega)
            have : s.level = (levelsOf lv.all).level := by rw [hslev, if_neg (by omega)]
            omega
    · exact Or.inr ⟨by omega, by omega⟩
  have hlevel : s.level ≤ (mkSession cfg e' suite is lv'.all).level := by
    show s.level ≤ if cfg.minLevel > 0 ∧ cfg.minLevel > (levelsOf lv'.all).level then cfg.minLevel else (levelsOf lv'.all).level
    rcases levelsOf_level lv.all hnn with ⟨h1, h2⟩ | ⟨h1, h2, h3⟩
    · -- no level applied: the minimum level
      rw [h2] at hslev
      have hm : cfg.minLevel > 0 := by
        by_cases hm : cfg.minLevel > 0
        · exact hm
        · rw [if_neg (by omega)] at hslev; omega
      rw [if_pos ⟨hm, hm⟩] at hslev
      split <;> omega
    · by_cases hm : cfg.minLevel > 0 ∧ cfg.minLevel > (levelsOf lv.all).level
      · rw [if_pos hm] at hslev
        split <;> omega
      · rw [if_neg hm] at hslev
        obtain ⟨_, r2⟩ := raised_session_level hall hpos hnn (fun c hc hne => by rw [hslev]; exact h3 c hc hne)
        have := r2 ⟨_, h2, by omega⟩
        split <;> omega
  have hreqs : addKeyReqs e' = addKeyReqs e := by
    funext r
    exact foldl_const_length (fun r => (r.add SenderAuthentication).add RecipientAuthentication) _ _ r hklen.symm
  refine ⟨mkSession cfg e' suite is lv'.all, ?_, hlevel, rfl, by rw [hins]; rfl⟩
  rw [newSession_ok_iff]
  refine ⟨suite, is, lv', by rw [hsuite, h1], ?_, ?_, h4, hm, h5, h6, ?_, ?_, rfl, ?_, ?_, ?_⟩
  · rw [hlev]; intro _; exact hdle
  · rw [hlev]; omega
  · rw [hlev]; exact hok
  · intro i hi hn
    have := (hsig i hi).length
    rw [hn] at this
    have hs1 : (signetsFor e i).isSome = true := by rw [signetsFor_isSome e e' i, hn]; rfl
    cases hse : signetsFor e i with
    | none => rw [hse] at hs1; cases hs1
    | some l =>
      rw [hse] at this
      simp at this
      exact h8 i hi (by rw [hse, this])
  · intro _; omega
  · rw [hs] at n2; exact n2
  · rw [hs, finalChecks_ok_iff] at hf
    rw [finalChecks_ok_iff]
    obtain ⟨f1, f2, f3, f4, f5, f6, f7, f8, f9⟩ := hf
    have hr : (mkSession cfg e' suite is lv'.all).reqs = (mkSession cfg e suite is lv.all).reqs := by
      simp only [mkSession, hreqs]
    rw [hr]
    refine ⟨f1, f2, f3, f4, f5, f6, ?_, ?_, ?_⟩
    · intro hi
      have := f7 hi
      unfold keySourceAvailable at this ⊢
      rw [Bool.or_eq_true] at this ⊢
      rcases this with h | h
      · left
        rw [List.any_eq_true] at h ⊢
        obtain ⟨x, hx, hxs⟩ := h
        exact ⟨x, hx, by rw [signetsFor_isSome e' e]; exact hxs⟩
      · right
        cases hk : keySecrets e' with
        | nil =>
          rw [hk] at hklen
          have := List.length_eq_zero_iff.mp hklen
          rw [this] at h; simp at h
        | cons _ _ => rfl
    · rw [← hlen, ← hklen]
      show e'.secrets.length + e'.senders.length + e'.recipients.length ≤ _
      have : (mkSession cfg e suite is lv.all).env = e := rfl
      rw [this] at f8
      omega
    · show demandedLevel cfg e'.securityLevel ≤ _
      rw [hlev]; omega

end Jess
