import Verif.Model.Stores
import Verif.Lemmas.Basic
import Verif.Props.TextFormat

/-!
# Trust stores (C30 to C34, C57)
-/

namespace Jess

/-! ## Names -/

/-- The names of store entries tell ID and kind. -/
theorem storageID_inj (id id' : Bytes) (r r' : Bool) : storageID id r = storageID id' r' ↔ id = id' ∧ r = r' := by
  constructor
  · intro h
    have h2 := congrArg List.reverse h
    cases r <;> cases r' <;> simp [storageID] at h h2 ⊢ <;> exact h
  · rintro ⟨rfl, rfl⟩; rfl

theorem envelopeName_inj (n n' : Bytes) : n ++ b!".envelope" = n' ++ b!".envelope" ↔ n = n' := by simp

/-- Names of envelope entries are never names of signet entries. -/
theorem storageID_ne_envelope (id n : Bytes) (r : Bool) : storageID id r ≠ n ++ b!".envelope" := by
  intro h
  have h2 := congrArg List.reverse h
  cases r <;> simp [storageID] at h2

/-! ## C30 -/

/-- What can happen to an in-memory store: its operations, and changes of the signets from outside. -/
inductive MemOp where
  | store (p : Ptr)
  | delete (id : Bytes) (recipient : Bool)
  | get (id : Bytes) (recipient : Bool)
  | modify (p : Ptr) (s : Signet)

/-- What the caller sees. -/
inductive MemOut where
  | done
  | failed (e : Err)
  | got (p : Ptr)
  deriving DecidableEq

def MemOut.ofUnit : Res Unit → MemOut
  | .ok _ => .done
  | .error e => .failed e

def setHeap (heap : Ptr → Signet) (p : Ptr) (s : Signet) : Ptr → Signet := fun q => if q = p then s else heap q

/-- The operations of the code. -/
def memStep (m : MemStore) (heap : Ptr → Signet) : MemOp → MemStore × (Ptr → Signet) × MemOut
  | .store p => ((m.store heap p).1, heap, .ofUnit (m.store heap p).2)
  | .delete id r => ((m.delete id r).1, heap, .ofUnit (m.delete id r).2)
  | .get id r => (m, heap, match m.get id r with | .ok p => .got p | .error e => .failed e)
  | .modify p s => (m, setHeap heap p s, .done)

/-- The specification: a map from ID and kind. A signet is filed under the ID and kind that it has when it is stored. -/
def mapStep (m : Bytes → Bool → Option Ptr) (heap : Ptr → Signet) : MemOp → (Bytes → Bool → Option Ptr) × (Ptr → Signet) × MemOut
  | .store p =>
    if (heap p).id = [] then (m, heap, .failed .malformed)
    else (fun i r => if i = (heap p).id ∧ r = (heap p).isPublic then some p else m i r, heap, .done)
  | .delete id r => (fun i q => if i = id ∧ q = r then none else m i q, heap, .done)
  | .get id r => (m, heap, match m id r with | some p => .got p | none => .failed .signetNotFound)
  | .modify p s => (m, setHeap heap p s, .done)

def memRun (m : MemStore) (heap : Ptr → Signet) : List MemOp → List MemOut
  | [] => []
  | op :: ops => (memStep m heap op).2.2 :: memRun (memStep m heap op).1 (memStep m heap op).2.1 ops

def mapRun (m : Bytes → Bool → Option Ptr) (heap : Ptr → Signet) : List MemOp → List MemOut
  | [] => []
  | op :: ops => (mapStep m heap op).2.2 :: mapRun (mapStep m heap op).1 (mapStep m heap op).2.1 ops

theorem memStep_refines (m : MemStore) (a : Bytes → Bool → Option Ptr) (heap : Ptr → Signet) (op : MemOp)
    (h : ∀ i r, m (storageID i r) = a i r) :
    (memStep m heap op).2 = (mapStep a heap op).2 ∧ ∀ i r, (memStep m heap op).1 (storageID i r) = (mapStep a heap op).1 i r := by
  cases op with
  | store p =>
    by_cases hp : (heap p).id = []
    · simp [memStep, mapStep, MemStore.store, hp, MemOut.ofUnit, h]
    · simp [memStep, mapStep, MemStore.store, hp, MemOut.ofUnit, h, storageID_inj]
  | delete id r => simp [memStep, mapStep, MemStore.delete, MemOut.ofUnit, h, storageID_inj]
  | get id r =>
    simp only [memStep, mapStep, MemStore.get, h]
    cases a id r <;> simp
  | modify p s => simp [memStep, mapStep, h]

/-- C30. Whatever is done with a new in-memory store, its answers are those of a map from ID and kind. -/
theorem mem_store_is_map (heap : Ptr → Signet) (ops : List MemOp) :
    memRun (fun _ => none) heap ops = mapRun (fun _ _ => none) heap ops := by
  have key : ∀ (m : MemStore) (a : Bytes → Bool → Option Ptr) (heap : Ptr → Signet), (∀ i r, m (storageID i r) = a i r) →
      memRun m heap ops = mapRun a heap ops := by
    induction ops with
    | nil => intros; rfl
    | cons op ops ih =>
      intro m a heap h
      obtain ⟨h1, h2⟩ := memStep_refines m a heap op h
      simp only [memRun, mapRun, h1]
      rw [ih _ _ _ h2]
  exact key _ _ heap (fun _ _ => rfl)

/-- C30. Public and private signets of the same ID do not shadow each other: storing one keeps the other. -/
theorem mem_store_no_shadow (m : MemStore) (heap : Ptr → Signet) (p : Ptr) (h : (heap p).id ≠ []) :
    (m.store heap p).1.get (heap p).id (heap p).isPublic = .ok p ∧
    (m.store heap p).1.get (heap p).id (!(heap p).isPublic) = m.get (heap p).id (!(heap p).isPublic) ∧
    ∀ id r, id ≠ (heap p).id → (m.store heap p).1.get id r = m.get id r := by
  simp only [MemStore.store, h, if_false, MemStore.get, if_true]
  refine ⟨trivial, ?_, fun id r hi => ?_⟩
  · have : ¬ (!(heap p).isPublic) = (heap p).isPublic := by cases (heap p).isPublic <;> simp
    simp [storageID_inj, this]
  · simp [storageID_inj, hi]

/-- A signet and its recipient are stored, one is deleted, an ID is changed after storing. -/
theorem mem_store_example :
    let heap : Ptr → Signet := fun p => { id := b!"a", isPublic := p == 1, scheme := b!"Ed25519" }
    memRun (fun _ => none) heap
      [.store 0, .store 1, .get b!"a" true, .delete b!"a" true, .get b!"a" true, .modify 0 { id := b!"b" }, .get b!"a" false,
       .store 0, .get b!"b" false, .modify 0 {}, .store 0] =
      [.done, .done, .got 1, .done, .failed .signetNotFound, .done, .got 0, .done, .got 0, .done, .failed .malformed] := by
  decide +kernel

/-! ## C31, in-memory store -/

/-- A signet is of the kind that the filter asks for (1 for signets, 2 for recipients, everything otherwise) and of one of the schemes, if
there are any. -/
def Wanted (filter : UInt8) (schemes : List Bytes) (s : Signet) : Prop :=
  (filter = 1 → s.isPublic = false) ∧ (filter = 2 → s.isPublic = true) ∧ (schemes ≠ [] → s.scheme ∈ schemes)

theorem passes_iff (filter : UInt8) (schemes : List Bytes) (s : Signet) :
    Wanted filter schemes s ↔ passesSchemes schemes s = true ∧ passesFilter filter s = true := by
  unfold Wanted passesSchemes passesFilter
  have hc : (schemes.isEmpty || schemes.contains s.scheme) = true ↔ (schemes ≠ [] → s.scheme ∈ schemes) := by
    cases schemes <;> simp
  rw [hc]
  by_cases h1 : filter = 1
  · subst h1
    simp [and_comm]
  · by_cases h2 : filter = 2
    · subst h2
      simp [and_comm]
    · simp [h1, h2]

theorem memSelectLoop_eq (heap : Ptr → Signet) (filter : UInt8) (schemes : List Bytes) (order : List Ptr) :
    ∀ acc, memSelectLoop heap filter schemes acc order =
      if order.all (fun p => passesSchemes schemes (heap p)) then acc ++ order.filter (fun p => passesFilter filter (heap p)) else [] := by
  induction order with
  | nil => intro acc; simp [memSelectLoop]
  | cons p ps ih =>
    intro acc
    simp only [memSelectLoop]
    cases h1 : passesSchemes schemes (heap p)
    · simp [h1]
    · cases h2 : passesFilter filter (heap p) <;> simp [h1, h2, ih]

/-- C31 is REFUTED for the in-memory store: one signet of another scheme hides all matching signets, in every iteration order. -/
theorem mem_select_incomplete (heap : Ptr → Signet) (order : List Ptr) (filter : UInt8) (schemes : List Bytes) (p : Ptr)
    (hp : p ∈ order) (hs : schemes ≠ []) (hn : (heap p).scheme ∉ schemes) : memSelect heap order filter schemes = .ok [] := by
  unfold memSelect
  rw [memSelectLoop_eq]
  have : ¬ order.all (fun p => passesSchemes schemes (heap p)) = true := by
    intro h
    have := List.all_eq_true.mp h p hp
    unfold passesSchemes at this
    simp [hs, hn] at this
  simp [this]

/-- C31, what holds: if all stored signets are of a wanted scheme, in particular if no schemes are given, exactly the wanted ones are
returned (once each, in iteration order). And a nonempty result is always complete. -/
theorem mem_select_partial (heap : Ptr → Signet) (order : List Ptr) (filter : UInt8) (schemes : List Bytes) (l : List Ptr)
    (h : memSelect heap order filter schemes = .ok l)
    (hl : l ≠ [] ∨ schemes = [] ∨ ∀ p ∈ order, (heap p).scheme ∈ schemes) :
    l.Sublist order ∧ ∀ p, p ∈ l ↔ p ∈ order ∧ Wanted filter schemes (heap p) := by
  unfold memSelect at h
  rw [memSelectLoop_eq] at h
  by_cases hall : order.all (fun p => passesSchemes schemes (heap p)) = true
  · rw [if_pos hall, List.nil_append] at h
    cases h
    refine ⟨List.filter_sublist, fun p => ?_⟩
    rw [List.mem_filter, passes_iff]
    have := List.all_eq_true.mp hall p
    grind
  · rw [if_neg hall] at h
    cases h
    exfalso
    apply hall
    rw [List.all_eq_true]
    intro p hp
    rcases hl with hl | hl | hl
    · exact absurd rfl hl
    · simp [passesSchemes, hl]
    · simp [passesSchemes, hl p hp]

/-- Both cases occur. -/
theorem mem_select_example :
    let heap : Ptr → Signet := fun p => { id := [97], isPublic := p == 1, scheme := if p = 2 then b!"Ed25519" else b!"ECDH-X25519" }
    memSelect heap [0, 1] 1 [b!"ECDH-X25519"] = .ok [0] ∧ memSelect heap [0, 1, 2] 1 [b!"ECDH-X25519"] = .ok [] := by
  decide +kernel

/-! ## C32 -/

/-- The characters of accepted names: ASCII letters, digits, and `- ._+@`. -/
def PermittedName (s : Bytes) : Prop :=
  ∀ c ∈ s, (97 ≤ c.toNat ∧ c.toNat ≤ 122) ∨ (65 ≤ c.toNat ∧ c.toNat ≤ 90) ∨ (48 ≤ c.toNat ∧ c.toNat ≤ 57) ∨
    c ∈ [45, 32, 46, 95, 43, 64]

theorem playsNice_iff (s : Bytes) : playsNice s = true ↔ PermittedName s := by
  have key : ∀ c : UInt8, (countIn permittedCharacters c != 0) = true ↔
      ((97 ≤ c.toNat ∧ c.toNat ≤ 122) ∨ (65 ≤ c.toNat ∧ c.toNat ≤ 90) ∨ (48 ≤ c.toNat ∧ c.toNat ≤ 57) ∨
        c ∈ ([45, 32, 46, 95, 43, 64] : List UInt8)) := by
    intro c
    have hall : ∀ n : Fin 256, (countIn permittedCharacters (UInt8.ofNat n.val) != 0) = true ↔
        ((97 ≤ n.val ∧ n.val ≤ 122) ∨ (65 ≤ n.val ∧ n.val ≤ 90) ∨ (48 ≤ n.val ∧ n.val ≤ 57) ∨
          UInt8.ofNat n.val ∈ ([45, 32, 46, 95, 43, 64] : List UInt8)) := by decide +kernel
    have := hall ⟨c.toNat, c.toNat_lt⟩
    simpa using this
  unfold playsNice PermittedName
  rw [List.all_eq_true]
  exact forall_congr' fun c => imp_congr_right fun _ => key c

theorem PermittedName.no_slash {s : Bytes} (h : PermittedName s) : (47 : UInt8) ∉ s := by
  intro hc
  have := h 47 hc
  simp at this

theorem splitSlash_cons_ne (c : UInt8) (cs : Bytes) (h : c ≠ 47) :
    ∃ x xs, splitSlash cs = x :: xs ∧ splitSlash (c :: cs) = (c :: x) :: xs := by
  have hne : splitSlash cs ≠ [] := by
    cases cs with
    | nil => simp [splitSlash]
    | cons d ds =>
      simp only [splitSlash]
      split
      · simp
      · cases splitSlash ds <;> simp
  cases hs : splitSlash cs with
  | nil => exact absurd hs hne
  | cons x xs => exact ⟨x, xs, rfl, by simp [splitSlash, h, hs]⟩

theorem splitSlash_ne_nil (s : Bytes) : splitSlash s ≠ [] := by
  cases s with
  | nil => simp [splitSlash]
  | cons d ds =>
    simp only [splitSlash]
    split
    · simp
    · cases splitSlash ds <;> simp

theorem splitSlash_single (s : Bytes) (h : (47 : UInt8) ∉ s) : splitSlash s = [s] := by
  induction s with
  | nil => rfl
  | cons c cs ih =>
    simp only [List.mem_cons, not_or] at h
    simp [splitSlash, Ne.symm h.1, ih h.2]

theorem splitSlash_append (a b : Bytes) : splitSlash (a ++ [47] ++ b) = splitSlash a ++ splitSlash b := by
  induction a with
  | nil => simp [splitSlash]
  | cons c cs ih =>
    simp only [List.cons_append, splitSlash, ih]
    split
    · rfl
    · cases hs : splitSlash cs with
      | nil => exact absurd hs (splitSlash_ne_nil cs)
      | cons x xs => rfl

theorem splitSlash_mem (s : Bytes) : ∀ x ∈ splitSlash s, (47 : UInt8) ∉ x := by
  induction s with
  | nil => simp [splitSlash]
  | cons c cs ih =>
    simp only [splitSlash]
    split
    · rename_i h
      intro x hx
      rcases List.mem_cons.mp hx with rfl | hx
      · simp
      · exact ih x hx
    · rename_i h
      cases hs : splitSlash cs with
      | nil => exact absurd hs (splitSlash_ne_nil cs)
      | cons y ys =>
        rw [hs] at ih
        intro x hx
        rcases List.mem_cons.mp hx with rfl | hx
        · simp only [List.mem_cons, not_or]
          exact ⟨Ne.symm h, ih y List.mem_cons_self⟩
        · exact ih x (List.mem_cons_of_mem _ hx)

theorem splitSlash_joinSlash (l : List Bytes) (hl : l ≠ []) (h : ∀ x ∈ l, (47 : UInt8) ∉ x) : splitSlash (joinSlash l) = l := by
  induction l with
  | nil => exact absurd rfl hl
  | cons x xs ih =>
    cases xs with
    | nil => exact splitSlash_single x (h x List.mem_cons_self)
    | cons y ys =>
      simp only [joinSlash]
      rw [splitSlash_append, splitSlash_single x (h x List.mem_cons_self),
        ih (by simp) (fun z hz => h z (List.mem_cons_of_mem _ hz))]
      rfl

/-- Elements that a path can keep: not empty, not a dot, without slash. -/
def PathElem (c : Bytes) : Prop := c ≠ [] ∧ c ≠ b!"." ∧ (47 : UInt8) ∉ c

theorem cleanStep_elems (rooted : Bool) (out : List Bytes) (c : Bytes) (ho : ∀ x ∈ out, PathElem x) (hc : (47 : UInt8) ∉ c) :
    ∀ x ∈ cleanStep rooted out c, PathElem x := by
  unfold cleanStep
  have hd : PathElem b!".." := by unfold PathElem; decide
  split
  · exact ho
  · rename_i h1
    split
    · split
      · cases rooted
        · intro x hx; simp at hx; subst hx; exact hd
        · intro x hx; simp at hx
      · rename_i t r
        split
        · intro x hx
          rcases List.mem_cons.mp hx with rfl | hx
          · exact hd
          · exact ho x hx
        · exact fun x hx => ho x (List.mem_cons_of_mem _ hx)
    · intro x hx
      rcases List.mem_cons.mp hx with rfl | hx
      · simp only [not_or] at h1
        exact ⟨h1.1, h1.2, hc⟩
      · exact ho x hx

theorem foldl_cleanStep_elems (rooted : Bool) (cs : List Bytes) (hc : ∀ c ∈ cs, (47 : UInt8) ∉ c) :
    ∀ out, (∀ x ∈ out, PathElem x) → ∀ x ∈ cs.foldl (cleanStep rooted) out, PathElem x := by
  induction cs with
  | nil => intro out h; exact h
  | cons c cs ih =>
    intro out h
    exact ih (fun d hd => hc d (List.mem_cons_of_mem _ hd)) _ (cleanStep_elems rooted out c h (hc c List.mem_cons_self))

/-- One step of cleaning does not change where the path leads. -/
theorem resolve_cleanStep (rooted : Bool) (cwd : Loc) (hcwd : rooted = true → cwd = []) (out : List Bytes) (c : Bytes)
    (ho : ∀ x ∈ out, PathElem x) :
    (cleanStep rooted out c).reverse.foldl resolveStep cwd = resolveStep (out.reverse.foldl resolveStep cwd) c := by
  unfold cleanStep
  split
  · rename_i h; simp [resolveStep, h]
  · rename_i h
    split
    · rename_i h2
      subst h2
      cases out with
      | nil =>
        cases rooted
        · simp
        · simp [hcwd rfl, resolveStep]
      | cons t r =>
        simp only
        split
        · rename_i h3; simp
        · rename_i h3
          have ht := ho t List.mem_cons_self
          simp only [List.reverse_cons, List.foldl_append, List.foldl_cons, List.foldl_nil]
          have e1 : resolveStep (r.reverse.foldl resolveStep cwd) t = t :: r.reverse.foldl resolveStep cwd := by
            unfold resolveStep
            rw [if_neg (by simp [ht.1, ht.2.1]), if_neg h3]
          rw [e1]
          simp [resolveStep]
    · simp

theorem resolve_foldl_clean (rooted : Bool) (cwd : Loc) (hcwd : rooted = true → cwd = []) (cs : List Bytes)
    (hc : ∀ c ∈ cs, (47 : UInt8) ∉ c) :
    ∀ out, (∀ x ∈ out, PathElem x) →
      (cs.foldl (cleanStep rooted) out).reverse.foldl resolveStep cwd = cs.foldl resolveStep (out.reverse.foldl resolveStep cwd) := by
  induction cs with
  | nil => intro out _; rfl
  | cons c cs ih =>
    intro out ho
    simp only [List.foldl_cons]
    rw [ih (fun d hd => hc d (List.mem_cons_of_mem _ hd)) _ (cleanStep_elems rooted out c ho (hc c List.mem_cons_self)),
      resolve_cleanStep rooted cwd hcwd out c ho]

theorem joinSlash_head (l : List Bytes) (h : ∀ x ∈ l, PathElem x) : isRooted (joinSlash l) = false := by
  cases l with
  | nil => rfl
  | cons x xs =>
    obtain ⟨hx1, _, hx3⟩ := h x List.mem_cons_self
    have hh : ∃ r, joinSlash (x :: xs) = x ++ r := by
      cases xs with
      | nil => exact ⟨[], by simp [joinSlash]⟩
      | cons y ys => exact ⟨[47] ++ joinSlash (y :: ys), by simp [joinSlash]⟩
    obtain ⟨r, hr⟩ := hh
    rw [hr]
    cases x with
    | nil => exact absurd rfl hx1
    | cons c cs =>
      simp only [List.mem_cons, not_or] at hx3
      simp [isRooted, Ne.symm hx3.1]

/-- Cleaning a path does not change where it leads. -/
theorem resolve_cleanPath (cwd : Loc) (p : Bytes) : resolve cwd (cleanPath p) = resolve cwd p := by
  have hel := foldl_cleanStep_elems (isRooted p) (splitSlash p) (splitSlash_mem p) [] (by simp)
  have hres := fun cwd' h => resolve_foldl_clean (isRooted p) cwd' h (splitSlash p) (splitSlash_mem p) [] (by simp)
  unfold cleanPath
  simp only
  generalize hout : (List.foldl (cleanStep (isRooted p)) [] (splitSlash p)).reverse = out at hres
  have hel' : ∀ x ∈ out, PathElem x := by
    intro x hx; rw [← hout] at hx; exact hel x (List.mem_reverse.mp hx)
  have hns : ∀ x ∈ out, (47 : UInt8) ∉ x := fun x hx => (hel' x hx).2.2
  cases hr : isRooted p
  · simp only [Bool.false_eq_true, if_false, List.nil_append]
    rw [hr] at hres
    have hres := hres cwd (by simp)
    by_cases ho : joinSlash out = []
    · have ho' : out = [] := by
        cases out with
        | nil => rfl
        | cons x xs =>
          exfalso
          have := splitSlash_joinSlash (x :: xs) (by simp) hns
          rw [ho] at this
          simp only [splitSlash, List.cons.injEq] at this
          exact (hel' x List.mem_cons_self).1 this.1.symm
      subst ho'
      rw [if_pos ho]
      simp only [List.foldl_nil, List.reverse_nil] at hres
      simp only [resolve, hr, Bool.false_eq_true, if_false, ← hres]
      rfl
    · rw [if_neg ho]
      have hout' : out ≠ [] := by rintro rfl; exact ho rfl
      simp only [resolve, joinSlash_head out hel', hr, Bool.false_eq_true, if_false, splitSlash_joinSlash out hout' hns]
      exact hres
  · simp only [if_true]
    rw [hr] at hres
    have hres := hres [] (by simp)
    rw [if_neg (by simp)]
    have h1 : isRooted ([47] ++ joinSlash out) = true := rfl
    have h2 : splitSlash ([47] ++ joinSlash out) = [] :: splitSlash (joinSlash out) := by simp [splitSlash]
    simp only [resolve, h1, h2, hr, if_true, List.foldl_cons]
    have h3 : resolveStep [] [] = [] := rfl
    rw [h3]
    cases out with
    | nil => exact hres
    | cons x xs => rw [splitSlash_joinSlash (x :: xs) (by simp) hns]; exact hres

/-- A name that leads to an entry of the directory itself. -/
theorem resolve_child (cwd : Loc) (dir name : Bytes) (hd : dir ≠ []) (hn : name ≠ [] ∧ name ≠ b!"." ∧ name ≠ b!".." ∧ (47 : UInt8) ∉ name) :
    resolve cwd (joinPath dir name) = name :: resolve cwd dir := by
  unfold joinPath
  rw [if_pos hd, resolve_cleanPath]
  have hr : isRooted (dir ++ [47] ++ name) = isRooted dir := by
    cases dir with
    | nil => exact absurd rfl hd
    | cons c cs => rfl
  simp only [resolve, hr, splitSlash_append, splitSlash_single name hn.2.2.2, List.foldl_append, List.foldl_cons, List.foldl_nil]
  unfold resolveStep
  rw [if_neg (by simp [hn.1, hn.2.1]), if_neg hn.2.2.1]

/-! ## Operations of the directory store -/

inductive DirOp where
  | storeSignet (w : WriteEnd) (s : Signet)
  | deleteSignet (id : Bytes) (recipient : Bool)
  | getSignet (id : Bytes) (recipient : Bool)
  | storeEnvelope (w : WriteEnd) (e : Envelope)
  | deleteEnvelope (name : Bytes)
  | getEnvelope (name : Bytes)

/-- What the caller sees. -/
inductive DirOut where
  | done
  | failed (e : Err)
  | signet (s : Signet)
  | envelope (e : Envelope)
  deriving DecidableEq

def DirOut.ofUnit : Res Unit → DirOut
  | .ok _ => .done
  | .error e => .failed e

def DirOut.ofSignet : Res Signet → DirOut
  | .ok s => .signet s
  | .error e => .failed e

def DirOut.ofEnvelope : Res Envelope → DirOut
  | .ok s => .envelope s
  | .error e => .failed e

/-- The operations of the code. -/
def dirStep (S : DirStore) (D : Dsd) (reg : List Suite) (fs : FS) : DirOp → FS × DirOut
  | .storeSignet w s => ((S.storeSignet D fs w s).1, .ofUnit (S.storeSignet D fs w s).2)
  | .deleteSignet id r => ((S.deleteSignet fs id r).1, .ofUnit (S.deleteSignet fs id r).2)
  | .getSignet id r => (fs, .ofSignet (S.getSignet D fs id r))
  | .storeEnvelope w e => ((S.storeEnvelope D fs w e).1, .ofUnit (S.storeEnvelope D fs w e).2)
  | .deleteEnvelope n => ((S.deleteEnvelope fs n).1, .ofUnit (S.deleteEnvelope fs n).2)
  | .getEnvelope n => (fs, .ofEnvelope (S.getEnvelope D reg fs n))

/-- The directory of a store. -/
def DirStore.root (S : DirStore) : Loc := resolve S.cwd S.storageDir

theorem cleanPath_ne (p : Bytes) : cleanPath p ≠ [] := by
  unfold cleanPath
  simp only
  by_cases h : (if isRooted p = true then [47] else []) ++ joinSlash ((splitSlash p).foldl (cleanStep (isRooted p)) []).reverse = []
  · rw [if_pos h]; simp
  · rw [if_neg h]; exact h

theorem newDirStore_spec (cwd : Loc) (fs : FS) (dir : Bytes) (S : DirStore) (h : newDirStore cwd fs dir = .ok S) :
    S.storageDir ≠ [] ∧ S.root = resolve cwd dir ∧ fs S.root = some .dir := by
  unfold newDirStore at h
  split at h
  · cases h
  · cases h
  · rename_i hd
    cases h
    exact ⟨cleanPath_ne dir, resolve_cleanPath cwd dir, hd⟩

theorem PermittedName.append {a b : Bytes} (ha : PermittedName a) (hb : PermittedName b) : PermittedName (a ++ b) := by
  intro c hc
  rcases List.mem_append.mp hc with h | h
  · exact ha c h
  · exact hb c h

theorem file_child (S : DirStore) (hS : S.storageDir ≠ []) (id suffix : Bytes) (h : PermittedName id)
    (hs : suffix ∈ [b!".signet", b!".recipient", b!".envelope"]) : S.file (id ++ suffix) = (id ++ suffix) :: S.root := by
  have hp : PermittedName suffix := by
    rw [← playsNice_iff]
    simp only [List.mem_cons, List.not_mem_nil, or_false] at hs
    rcases hs with rfl | rfl | rfl <;> decide +kernel
  have hl : 7 ≤ suffix.length := by
    simp only [List.mem_cons, List.not_mem_nil, or_false] at hs
    rcases hs with rfl | rfl | rfl <;> decide
  refine resolve_child S.cwd S.storageDir (id ++ suffix) hS ⟨?_, ?_, ?_, (h.append hp).no_slash⟩
  · intro e; have := congrArg List.length e; simp at this; simp [this.2] at hl
  · intro e; have := congrArg List.length e; simp at this; omega
  · intro e; have := congrArg List.length e; simp at this; omega

theorem file_signet (S : DirStore) (hS : S.storageDir ≠ []) (id : Bytes) (r : Bool) (h : PermittedName id) :
    S.file (storageID id r) = storageID id r :: S.root := by
  cases r
  · exact file_child S hS id b!".signet" h (by simp)
  · exact file_child S hS id b!".recipient" h (by simp)

theorem file_envelope (S : DirStore) (hS : S.storageDir ≠ []) (n : Bytes) (h : PermittedName n) :
    S.file (n ++ b!".envelope") = (n ++ b!".envelope") :: S.root :=
  file_child S hS n b!".envelope" h (by simp)

theorem write_frame (fs : FS) (w : WriteEnd) (l k : Loc) (data : Bytes) (h : (fs.write w l data).1 k ≠ fs k) : k = l := by
  unfold FS.write at h
  split at h
  · exact absurd rfl h
  · split at h
    · exact absurd rfl h
    all_goals
      · by_cases hk : k = l
        · exact hk
        · simp [FS.set, hk] at h

theorem remove_frame (fs : FS) (l k : Loc) (h : (fs.remove l).1 k ≠ fs k) : k = l := by
  unfold FS.remove at h
  split at h
  · exact absurd rfl h
  · exact absurd rfl h
  · by_cases hk : k = l
    · exact hk
    · simp [FS.set, hk] at h

/-- The entry that an operation is about: its name in the directory. -/
def DirOp.name : DirOp → Bytes
  | .storeSignet _ s => storageID s.id s.isPublic
  | .deleteSignet id r => storageID id r
  | .getSignet id r => storageID id r
  | .storeEnvelope _ e => e.name ++ b!".envelope"
  | .deleteEnvelope n => n ++ b!".envelope"
  | .getEnvelope n => n ++ b!".envelope"

/-- The ID or envelope name that an operation is given. -/
def DirOp.id : DirOp → Bytes
  | .storeSignet _ s => s.id
  | .deleteSignet id _ => id
  | .getSignet id _ => id
  | .storeEnvelope _ e => e.name
  | .deleteEnvelope n => n
  | .getEnvelope n => n

/-- C32. Whatever the ID or name is, and however a write ends: an operation only changes the file with the name of its entry, directly in
the storage directory, and its outcome only depends on this file (and the directory being there). -/
theorem dir_store_confined (cwd : Loc) (fs0 : FS) (dir : Bytes) (S : DirStore) (hS : newDirStore cwd fs0 dir = .ok S) (D : Dsd)
    (reg : List Suite) (fs : FS) (op : DirOp) :
    (∀ loc, (dirStep S D reg fs op).1 loc ≠ fs loc → loc = op.name :: resolve cwd dir) ∧
    (∀ fs' : FS, fs' (op.name :: resolve cwd dir) = fs (op.name :: resolve cwd dir) → fs' (resolve cwd dir) = fs (resolve cwd dir) →
      (dirStep S D reg fs' op).2 = (dirStep S D reg fs op).2) := by
  obtain ⟨h0, hr, -⟩ := newDirStore_spec cwd fs0 dir S hS
  rw [← hr]
  have hwrite : ∀ (fs fs' : FS) (w : WriteEnd) (n data : Bytes), fs' (n :: S.root) = fs (n :: S.root) → fs' S.root = fs S.root →
      (fs'.write w (n :: S.root) data).2 = (fs.write w (n :: S.root) data).2 := by
    intro fs fs' w n data h1 h2
    unfold FS.write
    simp only [h1, List.tail_cons, h2]
    by_cases hc : fs (n :: S.root) = some Node.dir ∨ n :: S.root = [] ∨ fs S.root ≠ some Node.dir
    · simp only [hc, if_true]
    · simp only [hc, if_false]
      cases w <;> rfl
  have hremove : ∀ (fs fs' : FS) (l : Loc), fs' l = fs l → (fs'.remove l).2 = (fs.remove l).2 := by
    intro fs fs' l h1
    unfold FS.remove
    rw [h1]
    split <;> rfl
  cases op with
  | storeSignet w s =>
    simp only [dirStep, DirOp.name, DirStore.storeSignet, writeSignetToFile]
    split
    · exact ⟨fun loc h => absurd rfl h, fun _ _ _ => rfl⟩
    · split
      · exact ⟨fun loc h => absurd rfl h, fun _ _ _ => rfl⟩
      · rename_i hn
        have hp := (playsNice_iff s.id).mp (by simpa using hn)
        rw [file_signet S h0 s.id s.isPublic hp]
        split
        · exact ⟨fun loc h => absurd rfl h, fun _ _ _ => rfl⟩
        · exact ⟨fun loc h => write_frame _ _ _ _ _ h, fun fs' h1 h2 => congrArg DirOut.ofUnit (hwrite _ _ _ _ _ h1 h2)⟩
  | deleteSignet id r =>
    simp only [dirStep, DirOp.name, DirStore.deleteSignet]
    split
    · exact ⟨fun loc h => absurd rfl h, fun _ _ _ => rfl⟩
    · rename_i hn
      rw [file_signet S h0 id r ((playsNice_iff id).mp (by simpa using hn))]
      exact ⟨fun loc h => remove_frame _ _ _ h, fun fs' h1 _ => congrArg DirOut.ofUnit (hremove _ _ _ h1)⟩
  | getSignet id r =>
    simp only [dirStep, DirOp.name, DirStore.getSignet]
    refine ⟨fun loc h => absurd rfl h, fun fs' h1 _ => ?_⟩
    split
    · rfl
    · rename_i hn
      rw [file_signet S h0 id r ((playsNice_iff id).mp (by simpa using hn))]
      simp only [loadSignetFromFile, FS.read, h1]
  | storeEnvelope w s =>
    simp only [dirStep, DirOp.name, DirStore.storeEnvelope, writeEnvelopeToFile]
    split
    · exact ⟨fun loc h => absurd rfl h, fun _ _ _ => rfl⟩
    · split
      · exact ⟨fun loc h => absurd rfl h, fun _ _ _ => rfl⟩
      · rename_i hn
        have hp := (playsNice_iff s.name).mp (by simpa using hn)
        rw [file_envelope S h0 s.name hp]
        split
        · exact ⟨fun loc h => absurd rfl h, fun _ _ _ => rfl⟩
        · exact ⟨fun loc h => write_frame _ _ _ _ _ h, fun fs' h1 h2 => congrArg DirOut.ofUnit (hwrite _ _ _ _ _ h1 h2)⟩
  | deleteEnvelope id =>
    simp only [dirStep, DirOp.name, DirStore.deleteEnvelope]
    split
    · exact ⟨fun loc h => absurd rfl h, fun _ _ _ => rfl⟩
    · rename_i hn
      rw [file_envelope S h0 id ((playsNice_iff id).mp (by simpa using hn))]
      exact ⟨fun loc h => remove_frame _ _ _ h, fun fs' h1 _ => congrArg DirOut.ofUnit (hremove _ _ _ h1)⟩
  | getEnvelope id =>
    simp only [dirStep, DirOp.name, DirStore.getEnvelope]
    refine ⟨fun loc h => absurd rfl h, fun fs' h1 _ => ?_⟩
    split
    · rfl
    · rename_i hn
      rw [file_envelope S h0 id ((playsNice_iff id).mp (by simpa using hn))]
      simp only [loadEnvelopeFromFile, FS.read, h1]

/-- C33. IDs and names with other characters are refused by every operation, which changes nothing. -/
theorem dir_store_refuses (S : DirStore) (D : Dsd) (reg : List Suite) (fs : FS) (op : DirOp) (h : ¬ PermittedName op.id) :
    dirStep S D reg fs op = (fs, .failed .malformed) := by
  have hp : playsNice op.id = false := by
    cases hx : playsNice op.id
    · rfl
    · exact absurd ((playsNice_iff _).mp hx) h
  cases op <;> simp only [DirOp.id] at hp <;>
    simp [dirStep, DirStore.storeSignet, DirStore.deleteSignet, DirStore.getSignet, DirStore.storeEnvelope, DirStore.deleteEnvelope,
      DirStore.getEnvelope, writeSignetToFile, writeEnvelopeToFile, hp, DirOut.ofUnit, DirOut.ofSignet, DirOut.ofEnvelope]

/-- Paths: `a/../../b` in `/x/y`, and a store directory with dots. -/
theorem path_examples :
    cleanPath b!"a/../../b//c/./d/.." = b!"../b/c" ∧ cleanPath b!"/../x/" = b!"/x" ∧ cleanPath b!"x/.." = b!"." ∧
    resolve [b!"y", b!"x"] b!"a/../../b" = [b!"b", b!"x"] ∧
    resolve [b!"y", b!"x"] (joinPath b!"../keys/." b!"..signet") = [b!"..signet", b!"keys", b!"x"] ∧
    playsNice b!"..+@ a9Z" = true ∧ playsNice b!"../a" = false ∧ playsNice [195, 164] = false := by
  decide +kernel

end Jess
