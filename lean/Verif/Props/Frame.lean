import Verif.Props.Exchange
import Verif.Model.WireSession

/-!
# C98: letters and envelopes use only the entries of the trust store that they name
-/

namespace Jess

open Requirements

/-- The trust stores agree on what is looked up for a list of IDs with schemes (specification): on the recipient entries if public keys are used (`r`), on the
private entries otherwise. (From the first shared key or password on the code looks up private entries in any case.) -/
structure AgreeOn (get get' : Bytes → Bool → Res Signet) (r : Bool) (named : List (Bytes × Bytes)) : Prop where
  recipients : r = true → ∀ k ∈ named, k.2 ≠ schemeKey → k.2 ≠ schemePassword → get k.1 true = get' k.1 true
  privates : (r = false ∨ ∃ k ∈ named, k.2 = schemeKey ∨ k.2 = schemePassword) → ∀ k ∈ named, get k.1 false = get' k.1 false

/-- ID and scheme of a signet. -/
def Signet.named (s : Signet) : Bytes × Bytes := (s.id, s.scheme)

/-- ID and scheme of a seal. -/
def Seal.named (s : Seal) : Bytes × Bytes := (s.id, s.scheme)

theorem nameFromStore_frame {w w' : World} {get get' : Bytes → Bool → Res Signet} (hw : w.store = some get) (hw' : w'.store = some get') (s : Signet)
    (h : get s.id false = get' s.id false) : nameFromStore w s = nameFromStore w' s := by
  unfold nameFromStore
  rw [hw, hw']
  dsimp only
  rw [h]

theorem fillPassword_frame {w w' : World} {get get' : Bytes → Bool → Res Signet} (hw : w.store = some get) (hw' : w'.store = some get')
    (hg : w'.getPw = w.getPw) (hc : w'.createPw = w.createPw) (s : Signet) (h : get s.id false = get' s.id false) (create : Bool) (level : Int) :
    fillPassword w s create level = fillPassword w' s create level := by
  unfold fillPassword
  rw [hg, hc, nameFromStore_frame hw hw' s h]

theorem fetchSignet_frame {w w' : World} {get get' : Bytes → Bool → Res Signet} (hw : w.store = some get) (hw' : w'.store = some get')
    (r : Bool) (s : Signet) (h : get s.id r = get' s.id r) : fetchSignet w r s = fetchSignet w' r s := by
  unfold fetchSignet
  rw [hw, hw']
  dsimp only
  rw [h]

theorem prepSignets_frame (P : Prims) {w w' : World} {get get' : Bytes → Bool → Res Signet} (hw : w.store = some get) (hw' : w'.store = some get')
    (hg : w'.getPw = w.getPw) (hc : w'.createPw = w.createPw) (level : Int) : ∀ (ss : List Signet) (r : Bool), AgreeOn get get' r (ss.map Signet.named) →
    prepSignets P w level r ss = prepSignets P w' level r ss
  | [], _, _ => rfl
  | s :: ss, r, h => by
    have hpub : r = true → s.scheme ≠ schemeKey → s.scheme ≠ schemePassword → get s.id true = get' s.id true := fun hr => h.recipients hr s.named (by simp)
    have hall : (r = false ∨ ∃ k ∈ (s :: ss).map Signet.named, k.2 = schemeKey ∨ k.2 = schemePassword) → get s.id false = get' s.id false :=
      fun x => h.privates x s.named (by simp)
    have hsec : s.scheme = schemeKey ∨ s.scheme = schemePassword → ∃ k ∈ (s :: ss).map Signet.named, k.2 = schemeKey ∨ k.2 = schemePassword :=
      fun x => ⟨s.named, by simp, x⟩
    have hrest : AgreeOn get get' r (ss.map Signet.named) := by
      refine ⟨fun hr k hk => h.recipients hr k (by simp only [List.map_cons]; exact List.mem_cons_of_mem _ hk), fun x k hk => h.privates ?_ k (by simp only [List.map_cons]; exact List.mem_cons_of_mem _ hk)⟩
      rcases x with x | ⟨k, hk, x⟩
      · exact .inl x
      · exact .inr ⟨k, by simp only [List.map_cons]; exact List.mem_cons_of_mem _ hk, x⟩
    have ih := fun q hq => prepSignets_frame P hw hw' hg hc level ss q hq
    simp only [prepSignets]
    split
    · split
      · rename_i hpw
        rw [fillPassword_frame hw hw' hg hc s (hall (.inr (hsec (.inr hpw)))), ih r hrest]
      · rename_i hpw
        by_cases hk : s.scheme = schemeKey
        · simp only [hk, if_true]
          rw [fetchSignet_frame hw hw' false s (hall (.inr (hsec (.inl hk)))), ih false ⟨by simp, fun _ k hk' => h.privates (.inr (hsec (.inl hk))) k
            (by simp only [List.map_cons]; exact List.mem_cons_of_mem _ hk')⟩]
        · simp only [hk, if_false]
          have : get s.id r = get' s.id r := by
            cases r with
            | false => exact hall (.inl rfl)
            | true => exact hpub rfl hk hpw
          rw [fetchSignet_frame hw hw' r s this, ih r hrest]
    · rw [ih r hrest]

/-- The trust stores agree on what is looked up for an envelope (specification). -/
structure AgreeFor (get get' : Bytes → Bool → Res Signet) (e : Envelope) : Prop where
  secrets : AgreeOn get get' e.opening (e.secrets.map Signet.named)
  senders : AgreeOn get get' e.opening (e.senders.map Signet.named)
  recipients : AgreeOn get get' (!e.opening) (e.recipients.map Signet.named)

theorem prepareSignets_frame (P : Prims) {w w' : World} {get get' : Bytes → Bool → Res Signet} (hw : w.store = some get) (hw' : w'.store = some get')
    (hg : w'.getPw = w.getPw) (hc : w'.createPw = w.createPw) (level : Int) (e : Envelope) (h : AgreeFor get get' e) :
    prepareSignets P w level e = prepareSignets P w' level e := by
  unfold prepareSignets
  rw [prepSignets_frame P hw hw' hg hc level _ _ h.secrets, prepSignets_frame P hw hw' hg hc level _ _ h.senders,
    prepSignets_frame P hw hw' hg hc level _ _ h.recipients]

theorem loadSuite_parts {reg : List Suite} {e e' : Envelope} {su : Suite} (h : loadSuite reg e = .ok (e', su)) :
    e'.secrets = e.secrets ∧ e'.senders = e.senders ∧ e'.recipients = e.recipients ∧ e'.opening = e.opening := by
  unfold loadSuite at h
  split at h
  · cases h; exact ⟨rfl, rfl, rfl, rfl⟩
  · split at h
    · cases h
    · cases h; exact ⟨rfl, rfl, rfl, rfl⟩

theorem correspondence_frame (P : Prims) (cfg : Config) (reg : List Suite) {w w' : World} {get get' : Bytes → Bool → Res Signet} (hw : w.store = some get)
    (hw' : w'.store = some get') (hg : w'.getPw = w.getPw) (hc : w'.createPw = w.createPw) (e : Envelope) (h : AgreeFor get get' e) :
    correspondence P cfg w reg e = correspondence P cfg w' reg e := by
  unfold correspondence
  cases hl : loadSuite reg e with
  | error x => rfl
  | ok p =>
    obtain ⟨e', su⟩ := p
    obtain ⟨a, b, c, d⟩ := loadSuite_parts hl
    simp only [ok_bind]
    rw [prepareSignets_frame P hw hw' hg hc su.securityLevel e' ⟨by rw [a, d]; exact h.secrets, by rw [b, d]; exact h.senders, by rw [c, d]; exact h.recipients⟩]

/-- C98, closing. Two worlds with the same password prompts and with trust stores that agree on what an envelope names - the private entries of its secrets
and senders, the recipient entries of its recipients: `Correspondence` and `WireCorrespondence` have the same result, the same session or the same
error, whatever else the stores hold. -/
theorem envelope_uses_named (P : Prims) (cfg : Config) (reg : List Suite) (w w' : World) (get get' : Bytes → Bool → Res Signet) (hw : w.store = some get)
    (hw' : w'.store = some get') (hg : w'.getPw = w.getPw) (hc : w'.createPw = w.createPw) (e : Envelope) (heo : e.opening = false)
    (h1 : ∀ k ∈ e.secrets ++ e.senders, get k.id false = get' k.id false) (h2 : AgreeOn get get' true (e.recipients.map Signet.named)) :
    correspondence P cfg w reg e = correspondence P cfg w' reg e ∧ wireCorrespondence P cfg w reg e = wireCorrespondence P cfg w' reg e := by
  have := correspondence_frame P cfg reg hw hw' hg hc e ⟨by
      rw [heo]
      refine ⟨by simp, fun _ k hk => ?_⟩
      obtain ⟨x, hx, rfl⟩ := List.mem_map.mp hk
      exact h1 x (List.mem_append_left _ hx), by
      rw [heo]
      refine ⟨by simp, fun _ k hk => ?_⟩
      obtain ⟨x, hx, rfl⟩ := List.mem_map.mp hk
      exact h1 x (List.mem_append_right _ hx), by rw [heo]; exact h2⟩
  exact ⟨this, by unfold wireCorrespondence; rw [this]⟩

/-- The same for the envelope of a letter. -/
theorem letter_frame (P : Prims) (cfg : Config) (reg : List Suite) {w w' : World} {get get' : Bytes → Bool → Res Signet} (hw : w.store = some get)
    (hw' : w'.store = some get') (hg : w'.getPw = w.getPw) (hc : w'.createPw = w.createPw) (l : Letter)
    (hk : ∀ k ∈ l.keys, get k.id false = get' k.id false) (hs : AgreeOn get get' true (l.signatures.map Seal.named)) (reqs : Option Requirements) (e : Envelope)
    (he : l.envelope reg reqs = .ok e) : correspondence P cfg w reg e = correspondence P cfg w' reg e := by
  unfold Letter.envelope at he
  split at he
  · cases he
  · split at he
    · cases he
    · split at he
      · cases he
      · simp only [bind_ok_iff] at he
        obtain ⟨_, _, he⟩ := he
        cases he
        apply correspondence_frame P cfg reg hw hw' hg hc
        refine ⟨⟨?_, ?_⟩, ?_, ⟨by simp, ?_⟩⟩
        · intro _ k hk' n1 n2
          obtain ⟨x, hx, rfl⟩ := List.mem_map.mp hk'
          obtain ⟨y, hy, rfl⟩ := List.mem_map.mp hx
          have hy2 := (List.mem_filter.mp hy).2
          simp only [Seal.isSecret, Bool.and_eq_true, Bool.or_eq_true, beq_iff_eq] at hy2
          rcases hy2.2 with h | h
          · exact absurd h n1
          · exact absurd h n2
        · intro _ k hk'
          obtain ⟨x, hx, rfl⟩ := List.mem_map.mp hk'
          obtain ⟨y, hy, rfl⟩ := List.mem_map.mp hx
          exact hk y (List.mem_filter.mp hy).1
        · have : (l.signatures.map (stubOf l.version)).map Signet.named = l.signatures.map Seal.named := by
            rw [List.map_map]; rfl
          show AgreeOn get get' true _
          rw [this]
          exact hs
        · intro _ k hk'
          obtain ⟨x, hx, rfl⟩ := List.mem_map.mp hk'
          obtain ⟨y, hy, rfl⟩ := List.mem_map.mp hx
          exact hk y (List.mem_filter.mp hy).1

/-- C98, opening. Two worlds with the same password prompts and with trust stores that have the same private entries for the key seals of a letter and
the same recipient entries for its signatures: `Open`, `Verify` and `WireCorrespondence` of the letter have the same result, data or error, whatever
else the stores hold. The letter can be any, also a forged one. -/
theorem letter_uses_named (P : Prims) (cfg : Config) (reg : List Suite) (w w' : World) (get get' : Bytes → Bool → Res Signet) (hw : w.store = some get)
    (hw' : w'.store = some get') (hg : w'.getPw = w.getPw) (hc : w'.createPw = w.createPw) (l : Letter)
    (hk : ∀ k ∈ l.keys, get k.id false = get' k.id false) (hs : AgreeOn get get' true (l.signatures.map Seal.named)) (reqs : Option Requirements) :
    l.open P cfg w reg reqs = l.open P cfg w' reg reqs ∧ l.verify P cfg w reg reqs = l.verify P cfg w' reg reqs ∧
      l.wireCorrespondence P cfg w reg = l.wireCorrespondence P cfg w' reg := by
  refine ⟨?_, ?_, ?_⟩
  · unfold Letter.open
    cases he : l.envelope reg reqs with
    | error x => rfl
    | ok e => simp only [ok_bind]; rw [letter_frame P cfg reg hw hw' hg hc l hk hs reqs e he]
  · unfold Letter.verify
    cases he : l.envelope reg reqs with
    | error x => rfl
    | ok e => simp only [ok_bind]; rw [letter_frame P cfg reg hw hw' hg hc l hk hs reqs e he]
  · unfold Letter.wireCorrespondence Jess.wireCorrespondence
    cases he : l.envelope reg (some (full.remove SenderAuthentication)) with
    | error x => rfl
    | ok e => simp only [ok_bind]; rw [letter_frame P cfg reg hw hw' hg hc l hk hs _ e he]

theorem ofSignet_inj {x y : Res Signet} (h : DirOut.ofSignet x = DirOut.ofSignet y) : x = y := by
  cases x <;> cases y <;> simp_all [DirOut.ofSignet]

theorem dirRun_get {cwd : Loc} {fs0 : FS} {dir : Bytes} {S : DirStore} (hS : newDirStore cwd fs0 dir = .ok S) (D : Dsd) (reg : List Suite) (id : Bytes)
    (r : Bool) : ∀ (ops : List DirOp) (fs : FS), (∀ op ∈ ops, op.entry ≠ .signet id r) →
    S.getSignet D (dirRun S D reg fs ops).1 id r = S.getSignet D fs id r
  | [], _, _ => rfl
  | op :: ops, fs, h => by
    have h1 := crash_damages_one_entry_partial D reg cwd fs0 dir S hS fs op (.getSignet id r) (fun e => h op List.mem_cons_self e.symm)
    have h2 : S.getSignet D (dirStep S D reg fs op).1 id r = S.getSignet D fs id r := by
      exact ofSignet_inj h1
    rw [← h2]
    exact dirRun_get hS D reg id r ops _ (fun o ho => h o (List.mem_cons_of_mem _ ho))

/-- C98, histories. A letter, any one, and a directory trust store; then a history of operations on the store, none of which is on an entry the letter
names: storing, deleting and reading signets and envelopes, each ending in any way, including crashes in the middle of a write. Afterwards the letter
opens, verifies or fails exactly as before. -/
theorem history_keeps_letter (P : Prims) (cfg : Config) (reg : List Suite) (D : Dsd) (cwd : Loc) (fs0 : FS) (dir : Bytes) (S : DirStore)
    (hS : newDirStore cwd fs0 dir = .ok S) (fs : FS) (ops : List DirOp) (l : Letter)
    (hk : ∀ k ∈ l.keys, ∀ op ∈ ops, op.entry ≠ .signet k.id false)
    (hs : ∀ k ∈ l.signatures, ∀ r, ∀ op ∈ ops, op.entry ≠ .signet k.id r)
    (w : World) (reqs : Option Requirements) :
    l.open P cfg { w with store := some (S.getSignet D (dirRun S D reg fs ops).1) } reg reqs = l.open P cfg { w with store := some (S.getSignet D fs) } reg reqs ∧
    l.verify P cfg { w with store := some (S.getSignet D (dirRun S D reg fs ops).1) } reg reqs = l.verify P cfg { w with store := some (S.getSignet D fs) } reg reqs ∧
    l.wireCorrespondence P cfg { w with store := some (S.getSignet D (dirRun S D reg fs ops).1) } reg =
      l.wireCorrespondence P cfg { w with store := some (S.getSignet D fs) } reg :=
  letter_uses_named P cfg reg { w with store := some (S.getSignet D (dirRun S D reg fs ops).1) } { w with store := some (S.getSignet D fs) } _ _ rfl rfl rfl rfl l
    (fun k hk' => dirRun_get hS D reg k.id false ops fs (hk k hk'))
    ⟨fun _ k hk' _ _ => (by obtain ⟨x, hx, rfl⟩ := List.mem_map.mp hk'; exact dirRun_get hS D reg x.id true ops fs (hs x hx true)),
      fun _ k hk' => (by obtain ⟨x, hx, rfl⟩ := List.mem_map.mp hk'; exact dirRun_get hS D reg x.id false ops fs (hs x hx false))⟩ reqs

/-- C98, histories. The same for closing: after a history of operations on other entries, an envelope gives the same session, or the same error. -/
theorem history_keeps_envelope (P : Prims) (cfg : Config) (reg : List Suite) (D : Dsd) (cwd : Loc) (fs0 : FS) (dir : Bytes) (S : DirStore)
    (hS : newDirStore cwd fs0 dir = .ok S) (fs : FS) (ops : List DirOp) (e : Envelope)
    (heo : e.opening = false) (hk : ∀ k ∈ e.secrets ++ e.senders, ∀ op ∈ ops, op.entry ≠ .signet k.id false)
    (hr : ∀ k ∈ e.recipients, ∀ r, ∀ op ∈ ops, op.entry ≠ .signet k.id r) (w : World) :
    correspondence P cfg { w with store := some (S.getSignet D (dirRun S D reg fs ops).1) } reg e =
        correspondence P cfg { w with store := some (S.getSignet D fs) } reg e ∧
      wireCorrespondence P cfg { w with store := some (S.getSignet D (dirRun S D reg fs ops).1) } reg e =
        wireCorrespondence P cfg { w with store := some (S.getSignet D fs) } reg e :=
  envelope_uses_named P cfg reg { w with store := some (S.getSignet D (dirRun S D reg fs ops).1) } { w with store := some (S.getSignet D fs) } _ _ rfl rfl rfl rfl e heo
    (fun k hk' => dirRun_get hS D reg k.id false ops fs (hk k hk'))
    ⟨fun _ k hk' _ _ => (by obtain ⟨x, hx, rfl⟩ := List.mem_map.mp hk'; exact dirRun_get hS D reg x.id true ops fs (hr x hx true)),
      fun _ k hk' => (by obtain ⟨x, hx, rfl⟩ := List.mem_map.mp hk'; exact dirRun_get hS D reg x.id false ops fs (hr x hx false))⟩

end Jess
