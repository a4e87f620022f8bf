import Verif.Props.Burn
import Verif.Props.Generate

/-!
# Details of C66 and C83
-/

namespace Jess

/-- C83: keys and passwords have no recipient, and asking for one changes nothing in memory. -/
theorem secrets_have_no_recipient (K : KeyLib) (R : RsaLib) (m : KeyMem) (s : MemSignet) (h : s.scheme = b!"key" ∨ s.scheme = b!"pw") :
    s.asRecipient K R m = (m, s, .error .unsupported) := if_pos h

/-- C83: keys that a caller has put into a signet as plain byte slices are burned by the Ed25519 tool: their bytes are overwritten and no others. -/
theorem plain_ed25519_burned (m : KeyMem) (a b : Slice) (ha : a.Wf m.heap) :
    (burnEd25519 m (.bytes a) .nil).heap.read a = List.replicate a.len 255 ∧ OnlyChanged m.heap (burnEd25519 m (.bytes a) .nil).heap a ∧
    (burnEd25519 m .nil (.bytes a)).heap.read a = List.replicate a.len 255 ∧ OnlyChanged m.heap (burnEd25519 m .nil (.bytes a)).heap a ∧
    burnEd25519 m (.edKey a) (.edKey b) = m :=
  ⟨burnSlice_read ha, burnSlice_only ha, burnSlice_read ha, burnSlice_only ha, rfl⟩

/-- C66: with a positive minimum security level and key size, the settings refuse no tool: the key pair of the tool is generated and stored. -/
theorem generate_settings_suffice {σ : Type} (E : GenEnv σ) (scheme : Bytes) (t : ToolInfo) (ht : getTool scheme = some t) (h1 : 0 < E.minLevel)
    (h2 : 0 < E.symKeySize) (s : Signet) (hg : Signet.generateKey E.P E.seed { version := 1, scheme := t.name } = (s, .ok ())) :
    genToolKey E scheme = s.store E.P := by
  unfold genToolKey
  rw [ht]
  dsimp only
  rw [if_neg (by rintro ⟨_, h⟩; omega), if_neg (by rintro ⟨_, h⟩; omega), hg]

end Jess
