import Verif.Model.LetterOps
import Verif.Lemmas.Basic
import Verif.Lemmas.List
import Verif.Props.Levels

/-! Lemmas about preparing signets. -/

namespace Jess

/-- The preparation of one signet, given the lookup flag. -/
def prepOne (P : Prims) (w : World) (level : Int) (flag : Bool) (s : Signet) : Res Signet :=
  if s.key.length = 0 then
    if s.scheme = schemePassword then fillPassword w s (!flag) level
    else do
      let s ← fetchSignet w (if s.scheme = schemeKey then false else flag) s
      finishPrep P s
  else finishPrep P s

/-- The flag after a signet: a referenced key signet clears it. -/
def nextFlag (flag : Bool) (s : Signet) : Bool :=
  if s.key.length = 0 ∧ s.scheme = schemeKey then false else flag

theorem prepSignets_cons (P : Prims) (w : World) (level : Int) (flag : Bool) (s : Signet) (ss : List Signet) :
    prepSignets P w level flag (s :: ss) =
      (prepOne P w level flag s >>= fun o => prepSignets P w level (nextFlag flag s) ss >>= fun rest => .ok (o :: rest)) := by
  rw [prepSignets]
  unfold prepOne nextFlag
  by_cases hk : s.key.length = 0
  · by_cases hp : s.scheme = schemePassword
    · have : s.scheme ≠ schemeKey := by rw [hp]; decide
      simp [hk, this, hp, show schemePassword ≠ schemeKey from by decide]
    · simp only [hk, hp, if_true, if_false]
      by_cases hs : s.scheme = schemeKey
      · simp only [hs, if_true, and_self]
        cases fetchSignet w false s <;> simp
      · simp only [hs, if_false, and_false]
        cases fetchSignet w flag s <;> simp
  · simp [hk]

theorem schemeKey_ne_pw : schemeKey ≠ schemePassword := by decide

/-- No referenced key signet is in the list. -/
def NoKeyStub (l : List Signet) : Prop := ∀ s ∈ l, s.key.length = 0 → s.scheme ≠ schemeKey

/-- Without referenced keys (or with the flag down) all signets are prepared with the same flag. -/
theorem prepSignets_all2 (P : Prims) (w : World) (level : Int) (flag : Bool) :
    ∀ (l out : List Signet), flag = false ∨ NoKeyStub l →
      (prepSignets P w level flag l = .ok out ↔ All2 (fun s o => prepOne P w level flag s = .ok o) l out)
  | [], out, _ => by
    simp only [prepSignets, Except.ok.injEq]
    constructor
    · rintro rfl; exact .nil
    · intro h; cases h; rfl
  | s :: ss, out, h => by
    have hn : nextFlag flag s = flag := by
      unfold nextFlag
      rcases h with rfl | h
      · simp
      · rw [if_neg]; rintro ⟨a, b⟩; exact h s (by simp) a b
    have ih := prepSignets_all2 P w level flag ss
    have h' : flag = false ∨ NoKeyStub ss := h.imp id (fun h x hx => h x (by simp [hx]))
    simp only [prepSignets_cons, hn, bind_ok_iff]
    constructor
    · rintro ⟨o, ho, rest, hr, he⟩
      cases he
      exact .cons ho ((ih rest h').mp hr)
    · intro hall
      cases hall with
      | cons ho hr => exact ⟨_, ho, _, (ih _ h').mpr hr, rfl⟩

/-- General form: the flag of each signet is the initial flag unless a referenced key came before. -/
theorem prepSignets_flags (P : Prims) (w : World) (level : Int) :
    ∀ (l out : List Signet) (flag : Bool), prepSignets P w level flag l = .ok out →
      All2 (fun s o => prepOne P w level flag s = .ok o ∨ (prepOne P w level false s = .ok o ∧ ∃ k ∈ l, k.scheme = schemeKey)) l out
  | [], out, _, h => by cases h; exact .nil
  | s :: ss, out, flag, h => by
    simp only [prepSignets_cons, bind_ok_iff] at h
    obtain ⟨o, ho, rest, hr, he⟩ := h
    cases he
    refine .cons (Or.inl ho) ?_
    have ih := prepSignets_flags P w level ss rest (nextFlag flag s) hr
    unfold nextFlag at ih
    split at ih
    · rename_i hk
      exact ih.mono fun a b hab => by
        rcases hab with h | ⟨h, _⟩
        · exact Or.inr ⟨h, s, by simp, hk.2⟩
        · exact Or.inr ⟨h, s, by simp, hk.2⟩
    · exact ih.mono fun a b hab => by
        rcases hab with h | ⟨h, k, hk, hs⟩
        · exact Or.inl h
        · exact Or.inr ⟨h, k, by simp [hk], hs⟩

/-- Loading keeps everything but the loaded keys. -/
theorem load_spec {P : Prims} {s k : Signet} (h : s.load P = .ok k) :
    k.id = s.id ∧ k.scheme = s.scheme ∧ k.key = s.key ∧ k.isPublic = s.isPublic ∧ k.protection = s.protection ∧
    k.info = s.info ∧ k.version = s.version ∧ k.loadedPub.isSome = true := by
  unfold Signet.load at h
  split at h
  · rename_i hl; cases h; simp [hl]
  · split at h
    · cases h
    · split at h
      · cases h
      · split at h
        · split at h
          · cases h
          · cases h; simp
        · cases h

theorem finishPrep_spec {P : Prims} {s o : Signet} (h : finishPrep P s = .ok o) :
    s.protection = false ∧ o.scheme = s.scheme ∧ o.id = s.id ∧ o.key = s.key ∧
    ((s.scheme = schemeKey ∨ s.scheme = schemePassword) ∧ o = s ∨
     s.scheme ≠ schemeKey ∧ s.scheme ≠ schemePassword ∧ s.load P = .ok o) := by
  unfold finishPrep at h
  split at h
  · cases h
  · rename_i hp
    have hp' : s.protection = false := by simpa using hp
    split at h
    · rename_i hs; cases h; exact ⟨hp', rfl, rfl, rfl, Or.inl ⟨hs, rfl⟩⟩
    · rename_i hs
      have := load_spec h
      exact ⟨hp', this.2.1, this.1, this.2.2.1, Or.inr ⟨fun a => hs (Or.inl a), fun a => hs (Or.inr a), h⟩⟩

theorem fetchSignet_spec {w : World} {flag : Bool} {s n : Signet} (h : fetchSignet w flag s = .ok n) :
    s.id ≠ [] ∧ (∃ get, w.store = some get ∧ get s.id flag = .ok n) ∧ (s.scheme = [] ∨ s.scheme = n.scheme) := by
  unfold fetchSignet at h
  split at h
  · cases h
  · rename_i hid
    split at h
    · cases h
    · rename_i get hget
      split at h
      · cases h
      · rename_i m hm
        split at h
        · cases h
        · rename_i hs
          cases h
          refine ⟨by rintro h; rw [h] at hid; exact hid rfl, ⟨get, hget, hm⟩, ?_⟩
          by_cases h0 : s.scheme = []
          · exact Or.inl h0
          · right
            by_cases h1 : s.scheme = n.scheme
            · exact h1
            · exact absurd ⟨h0, h1⟩ hs

/-- Preparing from a store: what the store returned for the signet's ID. -/
theorem prepOne_fetch {P : Prims} {w : World} {level : Int} {flag : Bool} {s o : Signet} (hk : s.key = [])
    (hp : s.scheme ≠ schemePassword) (h : prepOne P w level flag s = .ok o) :
    ∃ get n, w.store = some get ∧ get s.id (if s.scheme = schemeKey then false else flag) = .ok n ∧ s.id ≠ [] ∧
      (s.scheme = [] ∨ s.scheme = n.scheme) ∧ finishPrep P n = .ok o := by
  simp only [prepOne, hk, List.length_nil, if_true, hp, if_false, bind_ok_iff] at h
  obtain ⟨n, hn, ho⟩ := h
  obtain ⟨h1, ⟨get, h2, h3⟩, h4⟩ := fetchSignet_spec hn
  exact ⟨get, n, h2, h3, h1, h4, ho⟩

/-- The password callbacks fill in a password: they do not turn a password signet into another kind of signet. -/
structure World.KeepsScheme (w : World) : Prop where
  getPw : ∀ cb s s', w.getPw = some cb → cb s = .ok s' → s'.scheme = s.scheme
  createPw : ∀ cb s l s', w.createPw = some cb → cb s l = .ok s' → s'.scheme = s.scheme

theorem nameFromStore_scheme (w : World) (s : Signet) :
    (nameFromStore w s).scheme = s.scheme ∧ (nameFromStore w s).id = s.id ∧ (nameFromStore w s).key = s.key := by
  unfold nameFromStore
  (repeat' split) <;> exact ⟨rfl, rfl, rfl⟩

theorem fillPassword_scheme {w : World} (hw : w.KeepsScheme) {s o : Signet} {c : Bool} {level : Int}
    (h : fillPassword w s c level = .ok o) : o.scheme = s.scheme := by
  unfold fillPassword at h
  split at h
  · split at h
    · cases h; rfl
    · rename_i cb hcb; rw [hw.createPw cb _ _ _ hcb h, (nameFromStore_scheme w s).1]
  · split at h
    · cases h; rfl
    · rename_i cb hcb; rw [hw.getPw cb _ _ hcb h, (nameFromStore_scheme w s).1]

/-- The scheme of a prepared signet, unless the reference left it open. -/
theorem prepOne_scheme {P : Prims} {w : World} (hw : w.KeepsScheme) {level : Int} {flag : Bool} {s o : Signet}
    (h : prepOne P w level flag s = .ok o) : o.scheme = s.scheme ∨ (s.scheme = [] ∧ s.key = []) := by
  by_cases hk : s.key = []
  · by_cases hp : s.scheme = schemePassword
    · simp only [prepOne, hk, hp, List.length_nil, if_true] at h
      exact Or.inl (fillPassword_scheme hw h)
    · obtain ⟨get, n, _, _, _, h4, h5⟩ := prepOne_fetch hk hp h
      rw [(finishPrep_spec h5).2.1]
      rcases h4 with h4 | h4
      · exact Or.inr ⟨h4, hk⟩
      · exact Or.inl h4.symm
  · have : s.key.length ≠ 0 := by
      intro h; exact hk (List.length_eq_zero_iff.mp h)
    simp only [prepOne, this, if_false] at h
    exact Or.inl (finishPrep_spec h).2.1

end Jess
