import Verif.Props.Formats
import Verif.Props.Promises

namespace Jess.Formats

/-! ## Closed letters and their files -/

theorem registry_utf8 : ∀ su ∈ suiteRegistry, utf8 su.id = true ∧ ∀ i ∈ instsOf su, utf8 i.info.name = true := by decide +kernel

/-- All IDs of signets that a session uses are UTF-8 (specification). -/
def IdText (s : Session) : Prop := ∀ k ∈ s.env.secrets ++ s.env.senders ++ s.env.recipients, utf8 k.id = true

/-- C114. All texts of a closed letter are UTF-8 if and only if the IDs of the signets are that it was closed with. -/
theorem closed_letter_text (P : Prims) (cfg : Config) (w : World) (rng : Rng) (e : Envelope) (he : e.suite = none) (s : Session)
    (hs : correspondence P cfg w suiteRegistry e = .ok s) (data : Bytes) (l : Letter)
    (hc : (s.close P cfg rng s.initState data).2 = .ok l) : LetterText l ↔ IdText s := by
  obtain ⟨hl, hh⟩ := closed_letter_has P cfg w rng e he s hs data l hc
  have hu := no_signet_ignored P cfg s.env s hl.made (registered_session hl.made hl.mem).1
  have hreg := registry_utf8 s.suite hl.mem
  have hid : utf8 l.suiteID = true := by
    rw [(close_shape hl.made hl.mem hc).2.1, hl.suiteID]
    have h1 := hl.suite
    unfold getSuite at h1
    have h2 := List.find?_some h1
    rw [← (beq_iff_eq.mp h2)]
    exact hreg.1
  have hkey : ∀ p : Bytes × Bytes, p ∈ expectedSeals s.env ↔ (∃ k ∈ s.env.secrets, p = (k.scheme, k.id)) ∨ ∃ k ∈ s.env.recipients, p = ([], k.id) := by
    intro p
    unfold expectedSeals
    simp only [List.mem_append, List.mem_map, List.mem_filter, decide_eq_true_eq]
    constructor
    · rintro ((⟨k, ⟨h1, h2⟩, rfl⟩ | ⟨k, ⟨h1, h2⟩, rfl⟩) | ⟨k, h1, rfl⟩)
      · exact .inl ⟨k, h1, by rw [h2]⟩
      · exact .inl ⟨k, h1, by rw [h2]⟩
      · exact .inr ⟨k, h1, rfl⟩
    · rintro (⟨k, h1, rfl⟩ | ⟨k, h1, rfl⟩)
      · rcases hu.secrets k h1 with h2 | ⟨h2, _⟩
        · exact .inl (.inl ⟨k, ⟨h1, h2⟩, by rw [h2]⟩)
        · exact .inl (.inr ⟨k, ⟨h1, h2⟩, by rw [h2]⟩)
      · exact .inr ⟨k, h1, rfl⟩
  have hk : (∀ x ∈ l.keys, SealTexts (fun s => utf8 s = true) x) ↔ ∀ p ∈ expectedSeals s.env, utf8 p.1 = true ∧ utf8 p.2 = true := by
    rw [← hh.seals]
    simp [sealLabels, SealTexts]
  have hg : (∀ x ∈ l.signatures, SealTexts (fun s => utf8 s = true) x) ↔ ∀ k ∈ s.env.senders, utf8 k.scheme = true ∧ utf8 k.id = true := by
    have : (∀ x ∈ l.signatures, SealTexts (fun s => utf8 s = true) x) ↔ ∀ p ∈ l.signatures.map (fun x => (x.scheme, x.id)), utf8 p.1 = true ∧ utf8 p.2 = true := by
      simp [SealTexts]
    rw [this, hh.signatures]
    simp
  have hsch : ∀ k ∈ s.env.senders, utf8 k.scheme = true := by
    intro k h1
    obtain ⟨t, ht, _, hn⟩ := hu.senders k h1
    rw [← hn]
    rw [session_insts hl.made] at ht
    exact hreg.2 t ht
  have hsec : ∀ k ∈ s.env.secrets, utf8 k.scheme = true := by
    intro k h1
    rcases hu.secrets k h1 with h2 | ⟨h2, _⟩ <;> (rw [h2]; decide)
  unfold LetterText LetterTexts IdText
  simp only [List.mem_append]
  constructor
  · rintro ⟨_, h⟩ k ((h1 | h1) | h1)
    · exact ((hk.1 (fun x hx => h x (.inl hx))) _ ((hkey _).2 (.inl ⟨k, h1, rfl⟩))).2
    · exact ((hg.1 (fun x hx => h x (.inr hx))) k h1).2
    · exact ((hk.1 (fun x hx => h x (.inl hx))) _ ((hkey _).2 (.inr ⟨k, h1, rfl⟩))).2
  · intro h
    refine ⟨hid, ?_⟩
    rintro x (hx | hx)
    · refine hk.2 ?_ x hx
      intro p hp
      rcases (hkey p).1 hp with ⟨k, h1, rfl⟩ | ⟨k, h1, rfl⟩
      · exact ⟨hsec k h1, h k (.inl (.inl h1))⟩
      · exact ⟨rfl, h k (.inr h1)⟩
    · exact hg.2 (fun k h1 => ⟨hsch k h1, h k (.inl (.inr h1))⟩) x hx

/-- C114. A closed letter survives the file format and CBOR, whatever the data is, if the IDs of its signets are UTF-8. -/
theorem closed_letter_survives (P : Prims) (cfg : Config) (w : World) (rng : Rng) (e : Envelope) (he : e.suite = none) (s : Session)
    (hs : correspondence P cfg w suiteRegistry e = .ok s) (data : Bytes) (l : Letter)
    (hc : (s.close P cfg rng s.initState data).2 = .ok l) (hi : IdText s) (rest : Bytes) (hd : l.data.length < 2 ^ 64)
    (hh : ∀ hdr, goHeader.dump { l with data := [] } = .ok hdr → hdr.length < 2 ^ 64 - 1) :
    ∃ out, l.toFileFormat goHeader = (.ok out, l) ∧ letterFromFileFormat goHeader (out ++ rest) = .ok (l, rest) :=
  letter_file_survives l rest ((closed_letter_text P cfg w rng e he s hs data l hc).2 hi) hd hh

/-- C114 is REFUTED for IDs that are not UTF-8: a letter is closed and written to a file without complaint, but what is read from the file is not that letter. -/
theorem closed_letter_lost (P : Prims) (cfg : Config) (w : World) (rng : Rng) (e : Envelope) (he : e.suite = none) (s : Session)
    (hs : correspondence P cfg w suiteRegistry e = .ok s) (data : Bytes) (l : Letter)
    (hc : (s.close P cfg rng s.initState data).2 = .ok l) (hi : ¬ IdText s) (rest : Bytes) (hd : l.data.length < 2 ^ 64)
    (hh : ∀ hdr, goHeader.dump { l with data := [] } = .ok hdr → hdr.length < 2 ^ 64 - 1) :
    ∃ out l', l.toFileFormat goHeader = (.ok out, l) ∧ letterFromFileFormat goHeader (out ++ rest) = .ok (l', rest) ∧ l' ≠ l := by
  have hnt := fun h => hi ((closed_letter_text P cfg w rng e he s hs data l hc).1 h)
  obtain ⟨hdr, h1, h2⟩ := header_read { l with data := [] }
  refine ⟨pack64 1 ++ block (hdr ++ [10]) ++ block l.data, fixLetter l, by simp [Letter.toFileFormat, h1], ?_, fun h => hnt ((fixLetter_iff l).1 h)⟩
  have hhd := hh hdr h1
  simp only [letterFromFileFormat, List.append_assoc]
  rw [getN8_pack64 (by omega), ok_bind]
  simp only [ne_eq, not_true_eq_false, if_false]
  have : (hdr ++ [10]).length < 2 ^ 64 := by simp; omega
  rw [getBlock_block (d := hdr ++ [10]) this (block l.data ++ rest), ok_bind]; simp only []
  rw [h2, ok_bind]
  rw [getBlock_block hd, ok_bind]
  rfl

/-- The hypotheses are met: a letter is closed for a UTF-8 ID (with an umlaut), and one with a key of which the ID is Latin-1. -/
theorem closed_letter_text_example :
    let run := fun (id : Bytes) => match correspondence toyPrims toyConfig toyWorld suiteRegistry { suiteID := b!"key_v1", secrets := [{ version := 1, id := id, scheme := schemeKey, key := List.replicate 32 7 }] } with
      | .ok s => (match (s.close toyPrims toyConfig toyRng s.initState b!"hello").2 with
          | .ok l => some (sealLabels l.keys, decide (∀ k ∈ s.env.secrets ++ s.env.senders ++ s.env.recipients, utf8 k.id = true))
          | .error _ => none)
      | .error _ => none
    run [0x6d, 0xc3, 0xbc] = some ([(schemeKey, [0x6d, 0xc3, 0xbc])], true) ∧ run [0x6d, 0xfc] = some ([(schemeKey, [0x6d, 0xfc])], false) := by
  decide +kernel

end Jess.Formats
