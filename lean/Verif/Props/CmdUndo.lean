import Verif.Props.CmdFiles

/-!
# C61: where the commands do not undo each other
-/

namespace Jess

/-- C61 refuted: (1) what `jess close` wrote with an envelope of a lower security level, `jess open` refuses (C52); (2) what `jess sign` signed with an envelope that encrypts,
`jess verify` rejects (C42); (3) after `jess checksum add` on a file with a stale checksum line, or one that has comments only, `jess checksum verify` fails (C38). The first
command succeeds in all cases. -/
theorem commands_undo_refuted :
    let W : CmdEnv := { toyCmd weakEnvelope .done true with w := weakWorld }
    let S := toyCmd (toyEnvelope b!"v2" [] [b!"alice"] [b!"bob"]) .done true
    let d := toyDisk [(b!"f", b!"hello"), (b!"n.txt", b!"# jess-checksum: 1\nhello\n"), (b!"m.txt", b!"# hello")]
    ((closeCommand W d [b!"f", b!"with", b!"env"] []).2 = .ok () ∧
      (openCommand W (closeCommand W d [b!"f", b!"with", b!"env"] []).1 [b!"f.letter"] b!"g").2 = .error .level) ∧
    ((signCommand S d [b!"f", b!"with", b!"env"] []).2 = .ok () ∧
      (match (signCommand S d [b!"f", b!"with", b!"env"] []).1.content b!"f.sig" with
        | some (.file c) => decide (verifyCommand (toyVerify namedWorld [(b!"f", b!"hello"), (b!"f.sig", c)] [] none) [b!"f"] ≠ .ok ())
        | _ => false) = true) ∧
    ((checksumAdd S d [b!"n.txt"]).2 = .ok () ∧ checksumVerify S (checksumAdd S d [b!"n.txt"]).1 [b!"n.txt"] ≠ .ok ()) ∧
    ((checksumAdd S d [b!"m.txt"]).2 = .ok () ∧ checksumVerify S (checksumAdd S d [b!"m.txt"]).1 [b!"m.txt"] ≠ .ok ()) := by
  refine ⟨⟨by decide +kernel, by decide +kernel⟩, ⟨by decide +kernel, by decide +kernel⟩, ⟨by decide +kernel, by decide +kernel⟩, by decide +kernel, by decide +kernel⟩

end Jess
