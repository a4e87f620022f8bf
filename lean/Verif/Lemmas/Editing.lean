import Verif.Lemmas.PrepareIn
import Verif.Lemmas.Raise
import Verif.Props.FileSig
import Verif.Props.Tamper

/-! What the dialog for envelopes does with the signets of the envelope. -/

namespace Jess

/-- A signet of an envelope that is edited: a reference, a password, or what the store has for its ID (loaded or not). -/
def Held (P : Prims) (get : Bytes → Bool → Res Signet) (flag : Bool) (x : Signet) : Prop :=
  x.key = [] ∨ x.scheme = schemePassword ∨ ∃ n, x.id ≠ [] ∧ get x.id flag = .ok n ∧ (x = n ∨ finishPrep P n = .ok x)

/-- A signet of a prepared envelope: a password, or what the store has for its ID. -/
def Ready (P : Prims) (get : Bytes → Bool → Res Signet) (flag : Bool) (x : Signet) : Prop :=
  x.scheme = schemePassword ∨ ∃ n, x.id ≠ [] ∧ get x.id flag = .ok n ∧ finishPrep P n = .ok x

/-- The store gives a signet with the ID that was asked for. -/
def GivesAsked (get : Bytes → Bool → Res Signet) : Prop := ∀ id flag n, get id flag = .ok n → n.id = id

theorem finishPrep_again {P : Prims} {n x : Signet} (h : finishPrep P n = .ok x) : finishPrep P x = .ok x := by
  obtain ⟨h1, h2, _, _, h5⟩ := finishPrep_spec h
  rcases h5 with ⟨hs, rfl⟩ | ⟨hk, hp, hl⟩
  · exact h
  · obtain ⟨_, l2, _, _, l5, _, _, l8⟩ := load_spec hl
    unfold finishPrep
    have hx : x.protection = false := by rw [l5]; exact h1
    simp only [hx, Bool.false_eq_true, if_false, l2, hk, hp, or_self]
    unfold Signet.load
    simp [l8]

theorem prepOneIn_held {P : Prims} {w : World} {get : Bytes → Bool → Res Signet} {level : Int} {flag : Bool} {x : Signet}
    (hw : w.KeepsScheme) (hget : w.store = some get) (hids : GivesAsked get) (hx : Held P get flag x) :
    Held P get (nextFlag flag x) (prepOneIn P w level flag x).1 ∧
    ((prepOneIn P w level flag x).2.2 = .ok () → Ready P get (nextFlag flag x) (prepOneIn P w level flag x).1) := by
  unfold prepOneIn nextFlag
  by_cases hk : x.key.length = 0
  · by_cases hp : x.scheme = schemePassword
    · have hne : schemePassword ≠ schemeKey := by decide
      simp only [hk, hp, if_true, hne, and_false, if_false]
      cases hf : fillPassword w x (!flag) level with
      | error e => exact ⟨Or.inr (Or.inl (by rw [(nameFromStore_scheme w x).1]; exact hp)), by simp⟩
      | ok o =>
        have := fillPassword_scheme hw hf
        exact ⟨Or.inr (Or.inl (by rw [this, hp])), fun _ => Or.inl (by rw [this, hp])⟩
    · simp only [hk, hp, if_true, if_false, true_and]
      cases hf : fetchSignet w (if x.scheme = schemeKey then false else flag) x with
      | error e => exact ⟨Or.inl (List.length_eq_zero_iff.mp hk), by simp⟩
      | ok n =>
        obtain ⟨h1, ⟨get', h2, h3⟩, h4⟩ := fetchSignet_spec hf
        rw [hget] at h2
        cases h2
        have hid := hids _ _ _ h3
        dsimp only
        cases hfp : finishPrep P n with
        | error e =>
          refine ⟨Or.inr (Or.inr ⟨n, by dsimp only; rw [hid]; exact h1, by dsimp only; rw [hid]; exact h3, Or.inl rfl⟩), by simp⟩
        | ok y =>
          have hy := (finishPrep_spec hfp).2.2.1
          dsimp only
          rw [← hid, ← hy] at h1 h3
          exact ⟨Or.inr (Or.inr ⟨n, h1, h3, Or.inr hfp⟩), fun _ => Or.inr ⟨n, h1, h3, hfp⟩⟩
  · simp only [hk, if_false, false_and]
    have hne : x.key ≠ [] := fun h => hk (by rw [h]; rfl)
    cases hfp : finishPrep P x with
    | error e => exact ⟨hx, by simp⟩
    | ok y =>
      have hsp := finishPrep_spec hfp
      rcases hx with h | h | ⟨n, h1, h2, h3⟩
      · exact absurd h hne
      · dsimp only
        exact ⟨Or.inr (Or.inl (by rw [hsp.2.1]; exact h)), fun _ => Or.inl (by rw [hsp.2.1]; exact h)⟩
      · rcases h3 with rfl | h3
        · dsimp only
          rw [← hsp.2.2.1] at h1 h2
          exact ⟨Or.inr (Or.inr ⟨x, h1, h2, Or.inr hfp⟩), fun _ => Or.inr ⟨x, h1, h2, hfp⟩⟩
        · have := finishPrep_again h3
          rw [this] at hfp
          cases hfp
          exact ⟨Or.inr (Or.inr ⟨n, h1, h2, Or.inr h3⟩), fun _ => Or.inr ⟨n, h1, h2, h3⟩⟩

theorem prepIn_held {P : Prims} {w : World} {get : Bytes → Bool → Res Signet} {level : Int} {flag : Bool}
    (hw : w.KeepsScheme) (hget : w.store = some get) (hids : GivesAsked get) :
    ∀ l : List Signet, (∀ x ∈ l, Held P get flag x) → (flag = false ∨ ∀ x ∈ l, x.scheme ≠ schemeKey) →
      (∀ y ∈ (prepIn P w level flag l).1, Held P get flag y) ∧
      ((prepIn P w level flag l).2 = .ok () → ∀ y ∈ (prepIn P w level flag l).1, Ready P get flag y)
  | [], _, _ => by simp [prepIn]
  | x :: l, hx, hf => by
    have hn : nextFlag flag x = flag := by
      unfold nextFlag
      rcases hf with rfl | hf
      · simp
      · rw [if_neg]; rintro ⟨_, b⟩; exact hf x (by simp) b
    have h1 := prepOneIn_held (level := level) hw hget hids (hx x (by simp))
    have h2 := (prepOneIn_eq P w level flag x).1
    rw [hn] at h1 h2
    rw [prepIn_cons]
    generalize prepOneIn P w level flag x = r at *
    obtain ⟨y, f, r⟩ := r
    cases r with
    | error e =>
      refine ⟨?_, by simp⟩
      intro z hz
      rcases List.mem_cons.mp hz with rfl | hz
      · exact h1.1
      · exact hx z (by simp [hz])
    | ok u =>
      dsimp only at h1 h2 ⊢
      subst h2
      have ih := prepIn_held (level := level) hw hget hids l (fun z hz => hx z (by simp [hz]))
        (hf.imp id (fun h z hz => h z (by simp [hz])))
      refine ⟨?_, ?_⟩
      · intro z hz
        rcases List.mem_cons.mp hz with rfl | hz
        · exact h1.1
        · exact ih.1 z hz
      · intro hok z hz
        rcases List.mem_cons.mp hz with rfl | hz
        · exact h1.2 rfl
        · exact ih.2 hok z hz

/-- A signet for a key stays one. -/
theorem prepOneIn_key (P : Prims) (w : World) (level : Int) (flag : Bool) {x : Signet} (hx : x.scheme = schemeKey) :
    (prepOneIn P w level flag x).1.scheme = schemeKey := by
  unfold prepOneIn
  have hne : schemeKey ≠ schemePassword := by decide
  by_cases hk : x.key.length = 0
  · simp only [hk, hx, if_true, hne, if_false]
    cases hf : fetchSignet w false x with
    | error e => exact hx
    | ok n =>
      obtain ⟨_, _, h4⟩ := fetchSignet_spec hf
      have hn : n.scheme = schemeKey := by
        rcases h4 with h | h
        · rw [hx] at h; exact absurd h (by decide)
        · rw [← h, hx]
      dsimp only
      cases hfp : finishPrep P n with
      | error e => exact hn
      | ok y => exact (finishPrep_spec hfp).2.1.trans hn
  · simp only [hk, if_false]
    cases hfp : finishPrep P x with
    | error e => exact hx
    | ok y => exact (finishPrep_spec hfp).2.1.trans hx

theorem prepIn_key (P : Prims) (w : World) (level : Int) : ∀ (l : List Signet) (flag : Bool), (∃ x ∈ l, x.scheme = schemeKey) →
    ∃ y ∈ (prepIn P w level flag l).1, y.scheme = schemeKey
  | [], _, ⟨_, h, _⟩ => by cases h
  | x :: l, flag, ⟨k, hk, hs⟩ => by
    rw [prepIn_cons]
    have h1 : x.scheme = schemeKey → (prepOneIn P w level flag x).1.scheme = schemeKey := prepOneIn_key P w level flag
    generalize prepOneIn P w level flag x = r at *
    obtain ⟨y, f, r⟩ := r
    rcases List.mem_cons.mp hk with rfl | hk
    · cases r with
      | error e => exact ⟨y, by simp, h1 hs⟩
      | ok u => exact ⟨y, by simp, h1 hs⟩
    · cases r with
      | error e => exact ⟨k, by simp [hk], hs⟩
      | ok u =>
        obtain ⟨z, hz, hzs⟩ := prepIn_key P w level l f ⟨k, hk, hs⟩
        exact ⟨z, by simp [hz], hzs⟩

/-- The state of an envelope in the dialog. -/
structure Editing (P : Prims) (get : Bytes → Bool → Res Signet) (e : Envelope) : Prop where
  opening : e.opening = false
  suite : e.SuiteLoaded
  secrets : ∀ x ∈ e.secrets, Held P get false x
  senders : ∀ x ∈ e.senders, Held P get false x
  recipients : (∃ x ∈ e.recipients, x.scheme = schemeKey) ∨ ∀ x ∈ e.recipients, Held P get true x

/-- An envelope with references only. -/
theorem editing_refs {P : Prims} {get : Bytes → Bool → Res Signet} {e : Envelope} (ho : e.opening = false) (hs : e.SuiteLoaded)
    (h : ∀ x ∈ e.secrets ++ e.senders ++ e.recipients, x.key = []) : Editing P get e :=
  ⟨ho, hs, fun x hx => Or.inl (h x (by simp [hx])), fun x hx => Or.inl (h x (by simp [hx])),
    Or.inr fun x hx => Or.inl (h x (by simp [hx]))⟩

theorem prepareIn_editing {P : Prims} {w : World} {get : Bytes → Bool → Res Signet} {level : Int} {e : Envelope}
    (hw : w.KeepsScheme) (hget : w.store = some get) (hids : GivesAsked get) (he : Editing P get e) :
    Editing P get (prepareIn P w level e).1 ∧ (prepareIn P w level e).1.name = e.name ∧
    (prepareIn P w level e).1.suiteID = e.suiteID ∧ (prepareIn P w level e).1.suite = e.suite ∧
    (prepareIn P w level e).1.securityLevel = e.securityLevel ∧
    ((prepareIn P w level e).2 = .ok () →
      (∀ y ∈ (prepareIn P w level e).1.secrets, Ready P get false y) ∧ (∀ y ∈ (prepareIn P w level e).1.senders, Ready P get false y) ∧
      ((∃ x ∈ (prepareIn P w level e).1.recipients, x.scheme = schemeKey) ∨ ∀ y ∈ (prepareIn P w level e).1.recipients, Ready P get true y)) := by
  have h1 := prepIn_held (level := level) hw hget hids e.secrets he.secrets (Or.inl rfl)
  have h2 := prepIn_held (level := level) hw hget hids e.senders he.senders (Or.inl rfl)
  have h3 : ((∃ x ∈ (prepIn P w level true e.recipients).1, x.scheme = schemeKey) ∨
      ∀ y ∈ (prepIn P w level true e.recipients).1, Held P get true y) ∧
      ((prepIn P w level true e.recipients).2 = .ok () → (∃ x ∈ (prepIn P w level true e.recipients).1, x.scheme = schemeKey) ∨
        ∀ y ∈ (prepIn P w level true e.recipients).1, Ready P get true y) := by
    by_cases hk : ∃ x ∈ e.recipients, x.scheme = schemeKey
    · exact ⟨Or.inl (prepIn_key P w level _ _ hk), fun _ => Or.inl (prepIn_key P w level _ _ hk)⟩
    · have hall : ∀ x ∈ e.recipients, Held P get true x := by
        rcases he.recipients with h | h
        · exact absurd h hk
        · exact h
      have := prepIn_held (level := level) hw hget hids e.recipients hall (Or.inr fun x hx hs => hk ⟨x, hx, hs⟩)
      exact ⟨Or.inr this.1, fun h => Or.inr (this.2 h)⟩
  unfold prepareIn
  rw [he.opening]
  have hs := he.suite
  have hse := he.secrets
  have hsn := he.senders
  have hr := he.recipients
  simp only [Bool.not_false]
  generalize prepIn P w level false e.secrets = a at *
  obtain ⟨a, ra⟩ := a
  cases ra with
  | error x => exact ⟨⟨rfl, hs, h1.1, hsn, hr⟩, rfl, rfl, rfl, rfl, by simp⟩
  | ok u =>
    generalize prepIn P w level false e.senders = b at *
    obtain ⟨b, rb⟩ := b
    cases rb with
    | error x => exact ⟨⟨rfl, hs, h1.1, h2.1, hr⟩, rfl, rfl, rfl, rfl, by simp⟩
    | ok u =>
      dsimp only
      exact ⟨⟨rfl, hs, h1.1, h2.1, h3.1⟩, rfl, rfl, rfl, rfl, fun h => ⟨h1.2 rfl, h2.2 rfl, h3.2 h⟩⟩

end Jess
