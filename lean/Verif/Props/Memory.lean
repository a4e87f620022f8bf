import Verif.Model.Memory
import Verif.Props.Signatures
import Verif.Props.CloseOpen

/-! # C49: which memory closing and opening change -/

namespace Jess

/-! ## Specification -/

/-- The byte at a place in memory. -/
def byteAt (h : Heap) (arr i : Nat) : Option UInt8 := (h.arrays[arr]?).bind (fun a => a[i]?)

/-- The slice is one: it lies in an array. -/
def Slice.Wf (h : Heap) (s : Slice) : Prop := ∃ a, h.arrays[s.arr]? = some a ∧ s.off + s.cap ≤ a.length ∧ s.len ≤ s.cap

/-- No existing byte has changed. -/
def Unchanged (h h' : Heap) : Prop := ∀ arr i b, byteAt h arr i = some b → byteAt h' arr i = some b

/-- No existing byte has changed, except those of the slice. -/
def OnlyChanged (h h' : Heap) (s : Slice) : Prop :=
  ∀ arr i b, byteAt h arr i = some b → ¬ (arr = s.arr ∧ s.off ≤ i ∧ i < s.off + s.len) → byteAt h' arr i = some b

/-- Sizes of cipher texts: stream ciphers keep the size, authenticated encryption adds a tag. -/
structure Prims.Sizes (P : Prims) : Prop where
  encrypt : ∀ t k n d c, P.encrypt t k n d = .ok c → c.length = d.length
  decrypt : ∀ t k n d c, P.decrypt t k n d = .ok c → c.length = d.length
  aeadSeal : ∀ t k n ad d c, P.aeadSeal t k n ad d = .ok c → d.length < c.length
  aeadOpen : ∀ t k n ad d c, P.aeadOpen t k n ad d = .ok c → c.length ≤ d.length

/-! ## Reading and writing -/

theorem wf_len {h : Heap} {s : Slice} (hs : s.Wf h) : (h.read s).length = s.len := by
  obtain ⟨a, h1, h2, h3⟩ := hs
  simp only [Heap.read, h1, Option.getD_some, List.length_take, List.length_drop]
  omega

theorem read_write {h : Heap} {s : Slice} (hs : s.Wf h) {d : Bytes} (hd : d.length ≤ s.cap) :
    (h.write s d).read { s with len := d.length } = d := by
  obtain ⟨a, h1, h2, h3⟩ := hs
  have hlt : s.arr < h.arrays.length := (List.getElem?_eq_some_iff.mp h1).1
  simp only [Heap.read, Heap.write, h1, Option.getD_some, List.getElem?_set, hlt, if_true]
  rw [List.append_assoc, List.drop_append, List.drop_of_length_le (by simp only [List.length_take]; omega), List.nil_append]
  have : s.off - (a.take s.off).length = 0 := by simp only [List.length_take]; omega
  rw [this, List.drop_zero, List.take_append, List.take_of_length_le (Nat.le_refl _), Nat.sub_self, List.take_zero, List.append_nil]

theorem write_wf {h : Heap} {s : Slice} (hs : s.Wf h) {d : Bytes} (hd : d.length ≤ s.cap) :
    ({ s with len := d.length } : Slice).Wf (h.write s d) := by
  obtain ⟨a, h1, h2, h3⟩ := hs
  have hlt : s.arr < h.arrays.length := (List.getElem?_eq_some_iff.mp h1).1
  refine ⟨a.take s.off ++ d ++ a.drop (s.off + d.length), ?_, ?_, hd⟩
  · simp only [Heap.write, h1, Option.getD_some, List.getElem?_set, hlt, if_true]
  · simp only [List.length_append, List.length_take, List.length_drop]
    omega

theorem byteAt_write {h : Heap} {s : Slice} (hs : s.Wf h) {d : Bytes} (hd : d.length ≤ s.cap) {arr i : Nat}
    (hn : ¬ (arr = s.arr ∧ s.off ≤ i ∧ i < s.off + d.length)) : byteAt (h.write s d) arr i = byteAt h arr i := by
  obtain ⟨a, h1, h2, h3⟩ := hs
  have hlt : s.arr < h.arrays.length := (List.getElem?_eq_some_iff.mp h1).1
  simp only [byteAt, Heap.write, h1, Option.getD_some, List.getElem?_set]
  by_cases ha : s.arr = arr
  · subst ha
    simp only [hlt, if_true, Option.bind_some, h1, true_and] at hn ⊢
    by_cases hi : i < s.off
    · rw [List.append_assoc, List.getElem?_append_left (by simp only [List.length_take]; omega), List.getElem?_take]
      simp only [hi, if_true]
    · have : s.off + d.length ≤ i := by omega
      rw [List.getElem?_append_right (by simp only [List.length_append, List.length_take]; omega), List.getElem?_drop]
      congr 1
      simp only [List.length_append, List.length_take]
      omega
  · simp only [ha, if_false]

theorem alloc_read (h : Heap) (d : Bytes) : (h.alloc d).1.read (h.alloc d).2 = d := by
  simp only [Heap.alloc, Heap.read, List.getElem?_append_right (Nat.le_refl _), Nat.sub_self, List.getElem?_cons_zero, Option.getD_some,
    List.drop_zero, List.take_length]

theorem alloc_wf (h : Heap) (d : Bytes) : (h.alloc d).2.Wf (h.alloc d).1 := by
  refine ⟨d, ?_, ?_, Nat.le_refl _⟩
  · simp only [Heap.alloc, List.getElem?_append_right (Nat.le_refl _), Nat.sub_self, List.getElem?_cons_zero]
  · simp [Heap.alloc]

theorem byteAt_lt {h : Heap} {arr i : Nat} {b : UInt8} (hb : byteAt h arr i = some b) : arr < h.arrays.length := by
  unfold byteAt at hb
  cases ha : h.arrays[arr]? with
  | none => rw [ha] at hb; cases hb
  | some a => exact (List.getElem?_eq_some_iff.mp ha).1

theorem alloc_unchanged (h : Heap) (d : Bytes) : Unchanged h (h.alloc d).1 := by
  intro arr i b hb
  have := byteAt_lt hb
  unfold byteAt at hb ⊢
  simp only [Heap.alloc]
  rwa [List.getElem?_append_left this]

/-! ## A chain of tools -/

/-- `f` does on memory what `g` does on values, and keeps invariants. -/
def Refines (f : Heap → Slice → ToolInst × ToolState → Heap × Res Slice) (g : Bytes → ToolInst × ToolState → Res Bytes)
    (I : Heap → Slice → Prop) (K : Heap → Prop) : Prop :=
  ∀ h s x h' r, I h s → f h s x = (h', r) → (∀ e, r = .error e → g (h.read s) x = .error e ∧ K h') ∧
    (∀ s', r = .ok s' → g (h.read s) x = .ok (h'.read s') ∧ I h' s')

theorem memFold_refines {f : Heap → Slice → ToolInst × ToolState → Heap × Res Slice} {g : Bytes → ToolInst × ToolState → Res Bytes}
    {I : Heap → Slice → Prop} {K : Heap → Prop} (hf : Refines f g I K) (xs : List (ToolInst × ToolState)) :
    ∀ h s h' r, I h s → memFold f h s xs = (h', r) → (∀ e, r = .error e → foldRes g (h.read s) xs = .error e ∧ K h') ∧
      (∀ s', r = .ok s' → foldRes g (h.read s) xs = .ok (h'.read s') ∧ I h' s') := by
  induction xs with
  | nil =>
    intro h s h' r hi he
    cases he
    refine ⟨fun e he => (by cases he), fun s' he => ?_⟩
    cases he
    exact ⟨rfl, hi⟩
  | cons x xs ih =>
    intro h s h' r hi he
    rw [memFold] at he
    split at he
    · rename_i h1 e h2
      cases he
      obtain ⟨g1, _⟩ := hf h s x h' _ hi h2
      obtain ⟨g2, g3⟩ := g1 e rfl
      refine ⟨fun e' he' => ?_, fun s' he' => (by cases he')⟩
      cases he'
      rw [foldRes, g2]
      exact ⟨rfl, g3⟩
    · rename_i h1 s1 h2
      obtain ⟨_, g1⟩ := hf h s x h1 _ hi h2
      obtain ⟨g2, g3⟩ := g1 s1 rfl
      obtain ⟨k1, k2⟩ := ih h1 s1 h' r g3 he
      rw [foldRes, g2]
      exact ⟨k1, k2⟩

/-! ## Invariants -/

/-- What happened since the start with memory `h0` and the slice `d0`: only bytes of `d0` were changed, and the current slice is at the
place of `d0` (and not longer) or in a new array. -/
structure Inside (h0 : Heap) (d0 : Slice) (h : Heap) (s : Slice) : Prop where
  wf : s.Wf h
  place : (s.arr = d0.arr ∧ s.off = d0.off ∧ s.len ≤ d0.len) ∨ h0.arrays.length ≤ s.arr
  only : OnlyChanged h0 h d0
  grow : h0.arrays.length ≤ h.arrays.length

theorem write_length (h : Heap) (s : Slice) (d : Bytes) : (h.write s d).arrays.length = h.arrays.length := by
  simp [Heap.write]

theorem only_write {h0 h : Heap} {d0 s : Slice} (hi : Inside h0 d0 h s) {d : Bytes} (hd : d.length ≤ s.len) : OnlyChanged h0 (h.write s d) d0 := by
  obtain ⟨a, h1, h2, h3⟩ := hi.wf
  intro arr i b hb hn
  rw [byteAt_write hi.wf (by omega)]
  · exact hi.only arr i b hb hn
  · rintro ⟨rfl, k1, k2⟩
    rcases hi.place with ⟨p1, p2, p3⟩ | hp
    · exact hn ⟨p1, by omega, by omega⟩
    · have := byteAt_lt hb
      omega

theorem inside_write {h0 h : Heap} {d0 s : Slice} (hi : Inside h0 d0 h s) {d : Bytes} (hd : d.length ≤ s.len) :
    Inside h0 d0 (h.write s d) { s with len := d.length } := by
  obtain ⟨a, h1, h2, h3⟩ := hi.wf
  refine ⟨write_wf hi.wf (by omega), ?_, only_write hi hd, by rw [write_length]; exact hi.grow⟩
  rcases hi.place with ⟨p1, p2, p3⟩ | hp
  · exact .inl ⟨p1, p2, by simp only; omega⟩
  · exact .inr hp

theorem unchanged_trans {h1 h2 h3 : Heap} (a : Unchanged h1 h2) (b : Unchanged h2 h3) : Unchanged h1 h3 :=
  fun arr i x hx => b arr i x (a arr i x hx)

theorem only_alloc {h0 h : Heap} {d0 : Slice} (ho : OnlyChanged h0 h d0) (d : Bytes) : OnlyChanged h0 (h.alloc d).1 d0 :=
  fun arr i b hb hn => alloc_unchanged h d arr i b (ho arr i b hb hn)

theorem only_of_unchanged {h h' : Heap} (d : Slice) (hu : Unchanged h h') : OnlyChanged h h' d := fun arr i b hb _ => hu arr i b hb

theorem stream_refines {op : Bytes → ToolInst × ToolState → Res Bytes} (hop : ∀ d x c, op d x = .ok c → c.length = d.length)
    (h0 : Heap) (d0 : Slice) : Refines (memStream op) op (Inside h0 d0) (fun h => OnlyChanged h0 h d0 ∧ h0.arrays.length ≤ h.arrays.length) := by
  intro h s x h' r hi he
  unfold memStream at he
  split at he
  · rename_i e ho
    cases he
    refine ⟨fun e' he' => ?_, fun s' he' => (by cases he')⟩
    cases he'
    exact ⟨ho, hi.only, hi.grow⟩
  · rename_i d ho
    cases he
    have hl : d.length = s.len := by rw [hop _ _ _ ho, wf_len hi.wf]
    refine ⟨fun e' he' => (by cases he'), fun s' he' => ?_⟩
    cases he'
    obtain ⟨a, h1, h2, h3⟩ := hi.wf
    rw [read_write hi.wf (by omega)]
    exact ⟨ho, inside_write hi (by omega)⟩

/-- The same, for slices whose capacity is used up. -/
theorem stream_tight {op : Bytes → ToolInst × ToolState → Res Bytes} (hop : ∀ d x c, op d x = .ok c → c.length = d.length)
    (h0 : Heap) (d0 : Slice) : Refines (memStream op) op (fun h s => Inside h0 d0 h s ∧ s.cap = s.len) (fun h => OnlyChanged h0 h d0 ∧ h0.arrays.length ≤ h.arrays.length) := by
  intro h s x h' r hi he
  obtain ⟨k1, k2⟩ := stream_refines hop h0 d0 h s x h' r hi.1 he
  refine ⟨k1, fun s' hs' => ?_⟩
  obtain ⟨k3, k4⟩ := k2 s' hs'
  refine ⟨k3, k4, ?_⟩
  unfold memStream at he
  split at he
  · cases he; cases hs'
  · rename_i d ho
    cases he
    cases hs'
    simp only
    rw [hop _ _ _ ho, wf_len hi.1.wf]
    exact hi.2

theorem seal_refines {op : Bytes → ToolInst × ToolState → Res Bytes} (hop : ∀ d x c, op d x = .ok c → d.length < c.length)
    (h0 : Heap) (d0 : Slice) : Refines (memSeal op) op (fun h s => Inside h0 d0 h s ∧ s.cap = s.len) (fun h => OnlyChanged h0 h d0 ∧ h0.arrays.length ≤ h.arrays.length) := by
  intro h s x h' r hi he
  unfold memSeal at he
  split at he
  · rename_i e ho
    cases he
    refine ⟨fun e' he' => ?_, fun s' he' => (by cases he')⟩
    cases he'
    exact ⟨ho, hi.1.only, hi.1.grow⟩
  · rename_i d ho
    have hl := hop _ _ _ ho
    rw [wf_len hi.1.wf] at hl
    rw [if_neg (by rw [hi.2]; omega)] at he
    cases he
    refine ⟨fun e' he' => (by cases he'), fun s' he' => ?_⟩
    cases he'
    rw [alloc_read]
    refine ⟨ho, ⟨alloc_wf h d, .inr hi.1.grow, only_alloc hi.1.only d, ?_⟩, rfl⟩
    have := hi.1.grow
    simp only [Heap.alloc, List.length_append, List.length_singleton]
    omega

/-- The slice is still at its place. -/
def InPlace (h0 : Heap) (d0 : Slice) (h : Heap) (s : Slice) : Prop :=
  Inside h0 d0 h s ∧ s.arr = d0.arr ∧ s.off = d0.off ∧ s.len ≤ d0.len

theorem stream_inPlace {op : Bytes → ToolInst × ToolState → Res Bytes} (hop : ∀ d x c, op d x = .ok c → c.length = d.length)
    (h0 : Heap) (d0 : Slice) : Refines (memStream op) op (InPlace h0 d0) (fun h => OnlyChanged h0 h d0 ∧ h0.arrays.length ≤ h.arrays.length) := by
  intro h s x h' r hi he
  obtain ⟨k1, k2⟩ := stream_refines hop h0 d0 h s x h' r hi.1 he
  refine ⟨k1, fun s' hs' => ?_⟩
  obtain ⟨k3, k4⟩ := k2 s' hs'
  refine ⟨k3, k4, ?_⟩
  unfold memStream at he
  split at he
  · cases he; cases hs'
  · rename_i d ho
    cases he
    cases hs'
    simp only
    rw [hop _ _ _ ho, wf_len hi.1.wf]
    exact hi.2

theorem unseal_refines {op : Bytes → ToolInst × ToolState → Res Bytes} (hop : ∀ d x c, op d x = .ok c → c.length ≤ d.length)
    (h0 : Heap) (d0 : Slice) : Refines (memUnseal op) op (InPlace h0 d0) (fun h => OnlyChanged h0 h d0 ∧ h0.arrays.length ≤ h.arrays.length) := by
  intro h s x h' r hi he
  obtain ⟨a, h1, h2, h3⟩ := hi.1.wf
  unfold memUnseal at he
  split at he
  · rename_i e ho
    cases he
    refine ⟨fun e' he' => ?_, fun s' he' => (by cases he')⟩
    cases he'
    exact ⟨ho, only_write hi.1 (by simp only [List.length_replicate]; omega), by rw [write_length]; exact hi.1.grow⟩
  · rename_i d ho
    have hl := hop _ _ _ ho
    rw [wf_len hi.1.wf] at hl
    rw [if_pos (by omega)] at he
    cases he
    refine ⟨fun e' he' => (by cases he'), fun s' he' => ?_⟩
    cases he'
    rw [read_write hi.1.wf (by omega)]
    exact ⟨ho, inside_write hi.1 hl, hi.2.1, hi.2.2.1, Nat.le_trans hl hi.2.2.2⟩

theorem unchanged_refl (h : Heap) : Unchanged h h := fun _ _ _ hb => hb

theorem inside_start {h : Heap} {d : Slice} (hd : d.Wf h) : Inside h d h d :=
  ⟨hd, .inl ⟨rfl, rfl, Nat.le_refl _⟩, only_of_unchanged d (unchanged_refl h), Nat.le_refl _⟩

/-! ## Close -/

theorem adOf_data (s : Session) (l : Letter) (d m : Bytes) : s.adOf { l with data := d, mac := m } = s.adOf l := rfl

theorem ready_nil {s : Session} {p : Purpose} (hq : s.queue p = []) (sts : List ToolState) : s.ready sts p = [] := by
  unfold Session.ready
  rw [List.filter_eq_nil_iff]
  intro x hx hp
  have h1 : x.1 ∈ s.stateful := (List.of_mem_zip (show (x.1, x.2) ∈ s.stateful.zip sts from hx)).1
  have h2 : x.1 ∈ s.insts := (List.mem_filter.mp h1).1
  have : x.1 ∈ s.queue p := List.mem_filter.mpr ⟨h2, hp⟩
  rw [hq] at this
  cases this

theorem protect_refines {P : Prims} (hP : P.Sizes) {s : Session} {sts : List ToolState} {l : Letter} {h h' : Heap} {d : Slice} {r : Res MemLetter}
    (hd : d.Wf h) (ht : d.cap = d.len) (he : memProtect P s sts l h d = (h', r)) :
    protect P s sts l (h.read d) = (match r with | .ok m => .ok (m.value h') | .error e => .error e) ∧ OnlyChanged h h' d ∧
    (∀ m, r = .ok m → m.1.version = l.version ∧ s.adOf m.1 = s.adOf l) := by
  unfold memProtect at he
  unfold protect runEncrypt runSeal
  split at he
  · rename_i h1 e hf
    cases he
    obtain ⟨k, _⟩ := memFold_refines (stream_tight (fun d x c hc => hP.encrypt _ _ _ _ _ hc) h d) _ _ _ _ _ ⟨inside_start hd, ht⟩ hf
    obtain ⟨k1, k2⟩ := k e rfl
    rw [k1]
    exact ⟨rfl, k2.1, fun m hm => (by cases hm)⟩
  · rename_i h1 d1 hf
    obtain ⟨_, k⟩ := memFold_refines (stream_tight (fun d x c hc => hP.encrypt _ _ _ _ _ hc) h d) _ _ _ _ _ ⟨inside_start hd, ht⟩ hf
    obtain ⟨k1, k2⟩ := k d1 rfl
    rw [k1]
    simp only [ok_bind]
    split at he
    · rename_i h2 e hf2
      cases he
      obtain ⟨k, _⟩ := memFold_refines (seal_refines (fun d x c hc => hP.aeadSeal _ _ _ _ _ _ hc) h d) _ _ _ _ _ k2 hf2
      obtain ⟨k1, k2⟩ := k e rfl
      rw [k1]
      exact ⟨rfl, k2.1, fun m hm => (by cases hm)⟩
    · rename_i h2 d2 hf2
      obtain ⟨_, k⟩ := memFold_refines (seal_refines (fun d x c hc => hP.aeadSeal _ _ _ _ _ _ hc) h d) _ _ _ _ _ k2 hf2
      obtain ⟨k1, k3⟩ := k d2 rfl
      rw [k1]
      simp only [ok_bind]
      split at he
      · rename_i e hm
        cases he
        rw [hm]
        exact ⟨rfl, k3.1.only, fun m hm => (by cases hm)⟩
      · rename_i mac hm
        cases he
        rw [hm]
        refine ⟨rfl, k3.1.only, fun m hm => ?_⟩
        cases hm
        exact ⟨rfl, rfl⟩

/-- Without stream ciphers, nothing is overwritten. -/
theorem protect_unchanged {P : Prims} (hP : P.Sizes) {s : Session} (hq : s.queue .cipher = []) {sts : List ToolState} {l : Letter} {h h' : Heap} {d : Slice} {r : Res MemLetter}
    (hd : d.Wf h) (ht : d.cap = d.len) (he : memProtect P s sts l h d = (h', r)) : Unchanged h h' := by
  have key : ∀ (op : Bytes → ToolInst × ToolState → Res Bytes), (∀ d x c, op d x = .ok c → d.length < c.length) →
      Refines (memSeal op) op (fun h1 s => s.Wf h1 ∧ s.cap = s.len ∧ Unchanged h h1) (fun h1 => Unchanged h h1) := by
    intro op hop h1 s x h2 r hi he
    unfold memSeal at he
    split at he
    · rename_i e ho
      cases he
      refine ⟨fun e' he' => ?_, fun s' he' => (by cases he')⟩
      cases he'
      exact ⟨ho, hi.2.2⟩
    · rename_i d ho
      have hl := hop _ _ _ ho
      rw [wf_len hi.1] at hl
      rw [if_neg (by rw [hi.2.1]; omega)] at he
      cases he
      refine ⟨fun e' he' => (by cases he'), fun s' he' => ?_⟩
      cases he'
      rw [alloc_read]
      exact ⟨ho, alloc_wf h1 d, rfl, unchanged_trans hi.2.2 (alloc_unchanged h1 d)⟩
  unfold memProtect at he
  rw [ready_nil hq, memFold] at he
  simp only at he
  split at he
  · rename_i h2 e hf2
    cases he
    exact ((memFold_refines (key _ (fun d x c hc => hP.aeadSeal _ _ _ _ _ _ hc)) _ _ _ _ _ ⟨hd, ht, unchanged_refl h⟩ hf2).1 e rfl).2
  · rename_i h2 d2 hf2
    have := ((memFold_refines (key _ (fun d x c hc => hP.aeadSeal _ _ _ _ _ _ hc)) _ _ _ _ _ ⟨hd, ht, unchanged_refl h⟩ hf2).2 d2 rfl).2.2.2
    split at he <;> cases he <;> exact this

/-- The letter in memory as a value, if there is one. -/
def resValue (h : Heap) (r : Res MemLetter) : Res Letter := match r with | .ok m => .ok (m.value h) | .error e => .error e

/-- The data in memory as a value, if there is any. -/
def resRead (h : Heap) (r : Res Slice) : Res Bytes := match r with | .ok s => .ok (h.read s) | .error e => .error e

theorem signLetter_data {P : Prims} {rng : Rng} {s : Session} {st st' : SState} {ctr : Nat} {ad : Bytes} {l l' : Letter}
    (h : signLetter P rng s st ctr ad l = (st', .ok l')) : l'.data = l.data := by
  unfold signLetter at h
  split at h
  · cases h; rfl
  · obtain ⟨h1, h2⟩ := Prod.mk.inj h
    split at h2
    · cases h2
    · cases h2; rfl

theorem memSign_value (P : Prims) (rng : Rng) (s : Session) (st : SState) (ctr : Nat) (ad : Bytes) (h : Heap) (m : MemLetter) :
    signLetter P rng s st ctr ad (m.value h) = ((memSign P rng s st ctr ad h m).1, resValue h (memSign P rng s st ctr ad h m).2) := by
  unfold memSign
  split
  · rename_i st' e hs; rw [hs]; rfl
  · rename_i st' l hs
    rw [hs]
    have : l.data = h.read m.2 := signLetter_data hs
    simp only [resValue, MemLetter.value, ← this]

theorem closeCopied_spec {P : Prims} (hP : P.Sizes) (cfg : Config) (rng : Rng) (s : Session) (st : SState) (h : Heap) (d : Slice)
    (hd : d.Wf h) (ht : d.cap = d.len) :
    s.close P cfg rng st (h.read d) =
      ((memCloseCopied P cfg rng s st h d).2.1, resValue (memCloseCopied P cfg rng s st h d).1 (memCloseCopied P cfg rng s st h d).2.2) ∧
    OnlyChanged h (memCloseCopied P cfg rng s st h d).1 d ∧
    (s.queue .cipher = [] → Unchanged h (memCloseCopied P cfg rng s st h d).1) := by
  have hu := unchanged_refl h
  have ho := only_of_unchanged d hu
  unfold memCloseCopied Session.close
  cases hn : randomBytes rng 0 s.nonceSize with
  | error e => exact ⟨rfl, ho, fun _ => hu⟩
  | ok nonce =>
    simp only
    cases hk : s.kdf with
    | none =>
      simp only
      split
      · exact ⟨rfl, ho, fun _ => hu⟩
      · refine ⟨?_, ho, fun _ => hu⟩
        have := memSign_value P rng s st 1 [] h (({ version := s.env.version, suiteID := s.env.suiteID, nonce := nonce } : Letter), d)
        exact this
    | some k =>
      simp only
      cases hc : setupClosing P cfg rng s nonce with
      | error e => exact ⟨rfl, ho, fun _ => hu⟩
      | ok km =>
        simp only
        split
        · unfold memEncrypt encryptLetter
          cases hst : setupTools P s k nonce km.material 0 s.stateful st.tools with
          | mk tools rt =>
          cases rt with
          | error e => exact ⟨rfl, ho, fun _ => hu⟩
          | ok u =>
            simp only
            cases hp : memProtect P s tools { version := s.env.version, suiteID := s.env.suiteID, nonce := nonce, keys := km.keys } h d with
            | mk h' r =>
            obtain ⟨k1, k2, k3⟩ := protect_refines hP hd ht hp
            rw [k1]
            cases r with
            | error e =>
              refine ⟨rfl, k2, fun hq => ?_⟩
              exact protect_unchanged hP hq hd ht hp
            | ok m =>
              simp only
              refine ⟨?_, k2, fun hq => protect_unchanged hP hq hd ht hp⟩
              exact memSign_value P rng s _ km.ctr (s.adOf m.1) h' m
        · exact ⟨rfl, ho, fun _ => hu⟩

theorem memCopy_spec {h : Heap} {d : Slice} (hd : d.Wf h) :
    (memCopy h d).2.Wf (memCopy h d).1 ∧ (memCopy h d).2.cap = (memCopy h d).2.len ∧ (memCopy h d).1.read (memCopy h d).2 = h.read d ∧
    Unchanged h (memCopy h d).1 ∧
    ((memCopy h d).2 = d ∧ (memCopy h d).1 = h ∧ d.len = d.cap ∨ (memCopy h d).2.arr = h.arrays.length) := by
  unfold memCopy
  split
  · exact ⟨alloc_wf _ _, rfl, alloc_read _ _, alloc_unchanged _ _, .inr rfl⟩
  · rename_i hc
    simp only [ne_eq, Decidable.not_not] at hc
    exact ⟨hd, hc.symm, rfl, unchanged_refl h, .inl ⟨rfl, rfl, hc⟩⟩

/-- C49, closing. On memory, `Close` returns the letter (and leaves the session state) which the model on values describes. Only the bytes of
the data itself can change; and none do, if the slice does not use its whole capacity or if no stream cipher is used. -/
theorem close_memory (P : Prims) (hP : P.Sizes) (cfg : Config) (rng : Rng) (s : Session) (st st' : SState) (h h' : Heap) (d : Slice)
    (r : Res MemLetter) (hd : d.Wf h) (hc : memClose P cfg rng s st h d = (h', st', r)) :
    s.close P cfg rng st (h.read d) = (st', resValue h' r) ∧ OnlyChanged h h' d ∧
    (d.len ≠ d.cap ∨ (∀ t ∈ s.insts, t.info.purpose ≠ .cipher) → Unchanged h h') := by
  obtain ⟨c1, c2, c3, c4, c5⟩ := memCopy_spec hd
  unfold memClose at hc
  generalize hcp : memCopy h d = cp at hc c1 c2 c3 c4 c5
  obtain ⟨h1, d1⟩ := cp
  simp only at hc c1 c2 c3 c4 c5
  obtain ⟨k1, k2, k3⟩ := closeCopied_spec hP cfg rng s st h1 d1 c1 c2
  rw [hc] at k1 k2 k3
  simp only at k1 k2 k3
  rw [c3] at k1
  refine ⟨k1, ?_, ?_⟩
  · rcases c5 with ⟨rfl, rfl, _⟩ | c5
    · exact k2
    · intro arr i b hb _
      refine k2 arr i b (c4 arr i b hb) ?_
      rintro ⟨rfl, _⟩
      have := byteAt_lt hb
      omega
  · rintro (hl | hq)
    · rcases c5 with ⟨_, _, he⟩ | c5
      · exact absurd he hl
      · intro arr i b hb
        refine k2 arr i b (c4 arr i b hb) ?_
        rintro ⟨rfl, _⟩
        have := byteAt_lt hb
        omega
    · refine unchanged_trans c4 (k3 ?_)
      cases hq' : s.queue .cipher with
      | nil => rfl
      | cons t ts =>
        obtain ⟨t, ht, hp⟩ := (queue_ne_nil_iff s .cipher).mp (by rw [hq']; simp)
        exact absurd hp (hq t ht)

/-- No registered suite contains a stream cipher. -/
theorem registered_no_stream : ∀ su ∈ suiteRegistry, ∀ tid ∈ su.tools, ∀ t, getTool (parseToolID tid).1 = some t → t.purpose ≠ .cipher := by
  decide +kernel

/-- C49: a session for a registered suite never changes the caller's data, nor any other data, when it closes a letter. -/
theorem close_keeps_data (P : Prims) (hP : P.Sizes) (cfg : Config) (e : Envelope) (s : Session)
    (hs : newSession P cfg e = .ok s) (hr : s.suite ∈ suiteRegistry) (rng : Rng) (st st' : SState) (h h' : Heap) (d : Slice)
    (r : Res MemLetter) (hd : d.Wf h) (hc : memClose P cfg rng s st h d = (h', st', r)) :
    s.close P cfg rng st (h.read d) = (st', resValue h' r) ∧ Unchanged h h' := by
  obtain ⟨h1, _, h3⟩ := close_memory P hP cfg rng s st st' h h' d r hd hc
  refine ⟨h1, h3 (.inr ?_)⟩
  intro t ht
  obtain ⟨tid, htid, hmk⟩ := inst_tool hs ht
  exact registered_no_stream _ hr tid htid t.info (makeInst_spec hmk).1

/-! ## Open -/

theorem unprotect_refines {P : Prims} (hP : P.Sizes) {s : Session} {sts : List ToolState} {h h' : Heap} {m : MemLetter} {r : Res Slice}
    (hd : m.2.Wf h) (he : memUnprotect P s sts h m = (h', r)) :
    unprotect P s sts (m.value h) = resRead h' r ∧ (OnlyChanged h h' m.2 ∧ h.arrays.length ≤ h'.arrays.length) ∧
    (∀ d, r = .ok d → d.Wf h' ∧ d.arr = m.2.arr ∧ d.off = m.2.off ∧ d.len ≤ m.2.len) := by
  have ho : OnlyChanged h h m.2 ∧ h.arrays.length ≤ h.arrays.length := ⟨only_of_unchanged m.2 (unchanged_refl h), Nat.le_refl _⟩
  have hin : InPlace h m.2 h m.2 := ⟨inside_start hd, rfl, rfl, Nat.le_refl _⟩
  have hu := unseal_refines (op := openOne P (s.adOf m.1)) (fun d x c hc => by
    unfold openOne at hc
    split at hc
    · rename_i r hr; cases hc; exact hP.aeadOpen _ _ _ _ _ _ hr
    · cases hc
    · cases hc) h m.2
  have hdec := stream_inPlace (op := fun d x => P.decrypt x.1.info.name x.2.key x.2.nonce d) (fun d x c hc => hP.decrypt _ _ _ _ _ hc) h m.2
  unfold memUnprotect at he
  unfold unprotect
  have had : s.adOf (m.value h) = s.adOf m.1 := rfl
  have hdt : (m.value h).data = h.read m.2 := rfl
  have hmac : (m.value h).mac = m.1.mac := rfl
  rw [had, hdt, hmac]
  cases hm : runMACs P (s.ready sts .mac) (h.read m.2) (s.adOf m.1) with
  | error e =>
    rw [hm] at he
    cases he
    exact ⟨rfl, ho, fun d hd => (by cases hd)⟩
  | ok mac =>
    rw [hm] at he
    simp only at he
    simp only [ok_bind]
    split
    · rename_i hc
      rw [if_pos hc] at he
      cases he
      exact ⟨rfl, ho, fun d hd => (by cases hd)⟩
    · rename_i hc
      rw [if_neg hc] at he
      unfold runUnseal runDecrypt
      split at he
      · rename_i h1 e hf
        cases he
        obtain ⟨k, _⟩ := memFold_refines hu _ _ _ _ _ hin hf
        obtain ⟨k1, k2⟩ := k e rfl
        rw [k1]
        exact ⟨rfl, k2, fun d hd => (by cases hd)⟩
      · rename_i h1 d1 hf
        obtain ⟨_, k⟩ := memFold_refines hu _ _ _ _ _ hin hf
        obtain ⟨k1, k2⟩ := k d1 rfl
        rw [k1]
        simp only [ok_bind]
        obtain ⟨j1, j2⟩ := memFold_refines hdec _ _ _ _ _ k2 he
        cases r with
        | error e =>
          obtain ⟨i1, i2⟩ := j1 e rfl
          rw [i1]
          exact ⟨rfl, i2, fun d hd => (by cases hd)⟩
        | ok d2 =>
          obtain ⟨i1, i2⟩ := j2 d2 rfl
          rw [i1]
          refine ⟨rfl, ⟨i2.1.only, i2.1.grow⟩, fun d hd => ?_⟩
          cases hd
          exact ⟨i2.1.wf, i2.2⟩

/-- C49, opening. On memory, `Open` returns the data (and leaves the session state) which the model on values describes. Only the bytes of the
letter's data can change; the result is a part of them; and nothing changes, if the suite does not encrypt. -/
theorem open_memory_partial (P : Prims) (hP : P.Sizes) (cfg : Config) (s : Session) (st st' : SState) (h h' : Heap) (m : MemLetter)
    (r : Res Slice) (hd : m.2.Wf h) (ho : memOpen P cfg s st h m = (h', st', r)) :
    s.open P cfg st (m.value h) = (st', resRead h' r) ∧ (OnlyChanged h h' m.2 ∧ h.arrays.length ≤ h'.arrays.length) ∧
    (∀ d, r = .ok d → d.Wf h' ∧ d.arr = m.2.arr ∧ d.off = m.2.off ∧ d.len ≤ m.2.len) ∧ (s.kdf = none → h' = h) := by
  have hoc : OnlyChanged h h m.2 ∧ h.arrays.length ≤ h.arrays.length := ⟨only_of_unchanged m.2 (unchanged_refl h), Nat.le_refl _⟩
  unfold memOpen at ho
  unfold Session.open
  have hv : (m.value h).version = m.1.version := rfl
  have hnn : (m.value h).nonce = m.1.nonce := rfl
  rw [hv, hnn]
  split at ho
  · rename_i hver
    rw [if_pos hver]
    cases ho
    exact ⟨rfl, hoc, fun d hd => (by cases hd), fun _ => rfl⟩
  · rename_i hver
    rw [if_neg hver]
    split at ho
    · rename_i st1 e hs
      rw [hs]
      cases ho
      exact ⟨rfl, hoc, fun d hd => (by cases hd), fun _ => rfl⟩
    · rename_i st1 hs
      rw [hs]
      simp only
      cases hk : s.kdf with
      | none =>
        rw [hk] at ho
        simp only at ho ⊢
        split at ho
        · rename_i hc
          rw [if_pos hc]
          cases ho
          exact ⟨rfl, hoc, fun d hd => (by cases hd), fun _ => rfl⟩
        · rename_i hc
          rw [if_neg hc]
          cases ho
          exact ⟨rfl, hoc, fun d hd => (by cases hd; exact ⟨by assumption, rfl, rfl, Nat.le_refl _⟩), fun _ => rfl⟩
      | some k =>
        rw [hk] at ho
        simp only at ho ⊢
        cases hm : setupOpening P cfg s (m.value h) with
        | error e =>
          rw [hm] at ho
          cases ho
          exact ⟨rfl, hoc, fun d hd => (by cases hd), fun hn => (by cases hn)⟩
        | ok material =>
          rw [hm] at ho
          simp only at ho ⊢
          split at ho
          · rename_i hi
            rw [if_pos hi]
            unfold memDecrypt at ho
            unfold decryptLetter
            rw [hnn]
            split at ho
            · rename_i tools e ht
              rw [ht]
              cases ho
              exact ⟨rfl, hoc, fun d hd => (by cases hd), fun hn => (by cases hn)⟩
            · rename_i tools ht
              rw [ht]
              simp only at ho ⊢
              cases hu : memUnprotect P s tools h m with
              | mk h1 r1 =>
              rw [hu] at ho
              cases ho
              obtain ⟨k1, k2, k3⟩ := unprotect_refines hP hd hu
              rw [k1]
              exact ⟨rfl, k2, k3, fun hn => (by cases hn)⟩
          · rename_i hi
            rw [if_neg hi]
            cases ho
            exact ⟨rfl, hoc, fun d hd => (by cases hd), fun hn => (by cases hn)⟩

theorem read_unchanged {h h' : Heap} {d s : Slice} (hd : d.Wf h) (ho : OnlyChanged h h' s) (hne : d.arr ≠ s.arr) : h'.read d = h.read d := by
  obtain ⟨a, h1, h2, h3⟩ := hd
  have hb : ∀ i < a.length, byteAt h' d.arr i = a[i]? := by
    intro i hi
    have : byteAt h d.arr i = some a[i] := by unfold byteAt; rw [h1]; simp [hi]
    rw [ho d.arr i _ this (fun hh => hne hh.1)]
    simp [hi]
  apply List.ext_getElem?
  intro i
  simp only [Heap.read, h1, Option.getD_some, List.getElem?_take, List.getElem?_drop]
  split
  · rename_i hi
    have := hb (d.off + i) (by omega)
    unfold byteAt at this
    rw [← this]
    cases h'.arrays[d.arr]? <;> rfl
  · rfl

theorem wf_unchanged {h h' : Heap} {d s : Slice} (hd : d.Wf h) (ho : OnlyChanged h h' s) (hg : h.arrays.length ≤ h'.arrays.length)
    (hne : d.arr ≠ s.arr) : d.Wf h' := by
  obtain ⟨a, h1, h2, h3⟩ := hd
  have hlt : d.arr < h.arrays.length := (List.getElem?_eq_some_iff.mp h1).1
  refine ⟨h'.arrays[d.arr]'(by omega), List.getElem?_eq_getElem (by omega), ?_, h3⟩
  by_cases h0 : a.length = 0
  · omega
  · have hb : byteAt h d.arr (a.length - 1) = some (a[a.length - 1]'(by omega)) := by
      unfold byteAt; rw [h1, Option.bind_some]; exact List.getElem?_eq_getElem _
    have := ho d.arr (a.length - 1) _ hb (fun hh => hne hh.1)
    unfold byteAt at this
    rw [List.getElem?_eq_getElem (show d.arr < h'.arrays.length by omega), Option.bind_some] at this
    have := (List.getElem?_eq_some_iff.mp this).1
    omega

/-- C49 (partial): two copies of a letter in different arrays can both be opened, with the same result; the first result stays as it is. -/
theorem open_copies_partial (P : Prims) (hP : P.Sizes) (cfg : Config) (s : Session) (st st1 st2 : SState) (h h1 h2 : Heap) (m m' : MemLetter)
    (r1 r2 : Res Slice) (hm : m.2.Wf h) (hm' : m'.2.Wf h) (hcopy : m'.value h = m.value h) (hne : m.2.arr ≠ m'.2.arr)
    (ho1 : memOpen P cfg s st h m = (h1, st1, r1)) (ho2 : memOpen P cfg s st h1 m' = (h2, st2, r2)) :
    st1 = st2 ∧ resRead h1 r1 = resRead h2 r2 ∧ resRead h2 r1 = resRead h1 r1 := by
  obtain ⟨a1, a2, a3, _⟩ := open_memory_partial P hP cfg s st st1 h h1 m r1 hm ho1
  obtain ⟨b1, b2, b3, _⟩ := open_memory_partial P hP cfg s st st2 h1 h2 m' r2 (wf_unchanged hm' a2.1 a2.2 (Ne.symm hne)) ho2
  have hv : m'.value h1 = m.value h := by
    rw [← hcopy]
    unfold MemLetter.value
    rw [read_unchanged hm' a2.1 (Ne.symm hne)]
  rw [hv, a1] at b1
  obtain ⟨c1, c2⟩ := Prod.mk.inj b1
  refine ⟨c1, c2, ?_⟩
  cases r1 with
  | error e => rfl
  | ok d =>
    obtain ⟨d1, d2, _⟩ := a3 d rfl
    simp only [resRead]
    rw [read_unchanged d1 b2.1 (by rw [d2]; exact hne)]

/-! ## Examples -/

theorem toyPrims_sizes : toyPrims.Sizes where
  encrypt := by intro t k n d c h; cases h; simp
  decrypt := by intro t k n d c h; cases h; simp
  aeadSeal := by intro t k n ad d c h; cases h; simp [toyTag]; omega
  aeadOpen := by
    intro t k n ad d c h
    simp only [toyPrims] at h
    split at h
    · cases h; simp
    · cases h

/-- Closes and opens on memory, several times; the data is a slice of the array `abcdefgh`. Returns the array and the opened data. -/
def toyMem (e : Envelope) (reg : List Suite) (d : Slice) (opens : Nat) : Res (Bytes × List (Res Bytes)) := do
  let s ← correspondence toyPrims toyConfig toyWorld reg e
  let (h, st, r) := memClose toyPrims toyConfig toyRng s s.initState { arrays := [b!"abcdefgh"] } d
  let m ← r
  let e' ← m.1.envelope reg none
  let s' ← correspondence toyPrims toyConfig toyWorld reg e'
  let _ := st
  let rec go : Nat → Heap → List (Res Bytes)
    | 0, _ => []
    | n + 1, h =>
      match memOpen toyPrims toyConfig s' s'.initState h m with
      | (h, _, r) => resRead h r :: go n h
  .ok ((h.arrays[0]?).getD [], go opens h)

/-- C49 refuted: a letter can be opened, but not again: opening has overwritten its data. (With signatures, the second error is another.) For
a suite that only signs, the letter can be opened again; but the letter then shares the caller's array. -/
theorem open_twice_refuted :
    toyMem (toyEnvelope b!"key_v2" [b!"key"] [] []) suiteRegistry ⟨0, 2, 4, 6⟩ 2 = .ok (b!"abcdefgh", [.ok b!"cdef", .error .integrity]) ∧
    toyMem (toyEnvelope b!"v2" [] [b!"alice"] [b!"bob"]) suiteRegistry ⟨0, 2, 6, 6⟩ 2 = .ok (b!"abcdefgh", [.ok b!"cdefgh", .error .signature]) := by
  decide +kernel

/-- A suite with a stream cipher (no registered suite has one). -/
def streamSuite : Suite :=
  { id := b!"stream", tools := [b!"HKDF(SHA2-256)", b!"SALSA20", b!"POLY1305"], provides := [Confidentiality, Integrity], securityLevel := 128, status := 2 }

/-- With a stream cipher, closing overwrites the caller's data if the slice uses its whole capacity, as `close_memory` allows; otherwise it is
copied. With a suite that only signs nothing is overwritten, and the letter can be opened again (with requirements it meets). -/
theorem close_stream_example :
    (let s := fun d => do
      let s ← correspondence toyPrims toyConfig toyWorld [streamSuite] (toyEnvelope b!"stream" [b!"key"] [] [])
      .ok (memClose toyPrims toyConfig toyRng s s.initState { arrays := [b!"abcdefgh"] } d).1.arrays.head?
     s ⟨0, 2, 6, 6⟩ = (.ok (some b!"abdefghi") : Res (Option Bytes)) ∧ s ⟨0, 2, 4, 6⟩ = .ok (some b!"abcdefgh")) ∧
    (match correspondence toyPrims toyConfig toyWorld suiteRegistry (toyEnvelope b!"sign_v2" [] [b!"alice"] []) with
      | .error _ => false
      | .ok s =>
        match memClose toyPrims toyConfig toyRng s s.initState { arrays := [b!"abcdefgh"] } ⟨0, 2, 6, 6⟩ with
        | (h, _, .ok m) =>
          match memOpen toyPrims toyConfig s s.initState h m with
          | (h', _, .ok d) => decide (m.2.arr = 0 ∧ h' = h ∧ (memOpen toyPrims toyConfig s s.initState h' m).2.2 = .ok d ∧ h'.read d = b!"cdefgh")
          | _ => false
        | _ => false) = true := by
  decide +kernel

end Jess
