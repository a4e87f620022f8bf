import Verif.Model.KeyringOpen
import Verif.Props.DirStore

/-!
# C116: keyring stores with different names are separate, and opening one changes nothing in it

Histories over one keyring of the system: stores are opened (again and again, with failures) and used, in any order, by any names. The specification
gives every name a map of its own, and opening does nothing.
-/

namespace Jess

/-- What is done: opening the store with a name, or using it. -/
inductive SysOp where
  | opens (fault : RingFault) (name : Bytes)
  | use (name : Bytes) (op : RingOp)

/-- What is answered. -/
inductive SysOut where
  | opened
  | refused
  | used (out : DirOut)

/-- The code. A store that has been opened works on its service. -/
def sysStep (P : Prims) (D : Dsd) (k : SysRing) : SysOp → SysRing × SysOut
  | .opens f n => ((newKeyring k f n).1, match (newKeyring k f n).2 with | .ok _ => .opened | .error _ => .refused)
  | .use n op => (k.put (ringService n) (ringStep P D (k (ringService n)) op).1, .used (ringStep P D (k (ringService n)) op).2)

def sysRun (P : Prims) (D : Dsd) (k : SysRing) : List SysOp → List SysOut
  | [] => []
  | op :: ops => (sysStep P D k op).2 :: sysRun P D (sysStep P D k op).1 ops

/-- The specification: a map for every name. Opening changes none of them; it is refused iff the keyring fails or does not return what it was given. -/
def absSysRun (P : Prims) (D : Dsd) (m : Bytes → AbsStore) : List SysOp → List SysOut
  | [] => []
  | .opens f _ :: ops => (if f = .none ∨ f = .other b!"!selfcheck" then .opened else .refused) :: absSysRun P D m ops
  | .use n op :: ops =>
    .used (absRingStep P D (m n) op).2 :: absSysRun P D (fun x => if x = n then (absRingStep P D (m n) op).1 else m x) ops

private theorem service_inj {a b : Bytes} : ringService a = ringService b ↔ a = b := by
  unfold ringService
  exact ⟨fun h => List.append_cancel_left h, fun h => by rw [h]⟩

private theorem selfcheck_signet (id : Bytes) (r : Bool) : storageID id r ≠ b!"_selfcheck" := by
  intro h
  have h' := congrArg List.reverse h
  unfold storageID at h'
  cases r <;> simp at h'

private theorem selfcheck_envelope (n : Bytes) : n ++ b!".envelope" ≠ b!"_selfcheck" := by
  intro h
  have h' := congrArg List.reverse h
  simp at h'

private theorem opens_keeps (k : SysRing) (f : RingFault) (n : Bytes) (s x : Bytes) (hx : x ≠ b!"_selfcheck") : (newKeyring k f n).1 s x = k s x := by
  have h : (newKeyring k f n).1 = k ∨
      (newKeyring k f n).1 = k.put (ringService n) (fun x => if x = b!"_selfcheck" then some b!"!selfcheck" else k (ringService n) x) := by
    unfold newKeyring
    cases f with
    | set => exact .inl rfl
    | get => exact .inr rfl
    | none =>
      right
      simp only []
      split
      · rfl
      · split <;> rfl
    | other b =>
      right
      simp only []
      split <;> rfl
  rcases h with h | h
  · rw [h]
  · rw [h]
    unfold SysRing.put
    by_cases hs : s = ringService n
    · rw [if_pos hs, hs]
      exact if_neg hx
    · rw [if_neg hs]

private theorem opens_answer (k : SysRing) (f : RingFault) (n : Bytes) :
    (match (newKeyring k f n).2 with | .ok _ => SysOut.opened | .error _ => .refused) =
      if f = .none ∨ f = .other b!"!selfcheck" then SysOut.opened else .refused := by
  cases f with
  | set => rfl
  | get => rfl
  | none => simp [newKeyring, SysRing.put]
  | other b =>
    by_cases hb : b = b!"!selfcheck"
    · subst hb
      simp [newKeyring]
    · simp [newKeyring, hb]

/-- C116. Whatever is done with keyring stores over one keyring, the answers are those of separate maps, one for every name, which opening does not
change. The keyring may hold other things before (of services that are not of this library, and self check entries). -/
theorem keyring_stores_separate (P : Prims) (D : Dsd) (hD : D.Sound) (k : SysRing)
    (hk : ∀ n x, x ≠ b!"_selfcheck" → k (b!"jess:" ++ n) x = none) (ops : List SysOp) :
    sysRun P D k ops = absSysRun P D (fun _ => .empty) ops := by
  have key : ∀ (ops : List SysOp) (k : SysRing) (m : Bytes → AbsStore), (∀ n, RingRefines D (k (ringService n)) (m n)) →
      sysRun P D k ops = absSysRun P D m ops := by
    intro ops
    induction ops with
    | nil => intros; rfl
    | cons op ops ih =>
      intro k m h
      cases op with
      | opens f n =>
        rw [sysRun, absSysRun]
        congr 1
        · exact opens_answer k f n
        · refine ih _ _ fun n' => ?_
          refine ⟨fun id r => ?_, fun e => ?_⟩
          · show RingHolds _ ((newKeyring k f n).1 _ _) _
            rw [opens_keeps k f n _ _ (selfcheck_signet id r)]
            exact (h n').signet id r
          · show RingHolds _ ((newKeyring k f n).1 _ _) _
            rw [opens_keeps k f n _ _ (selfcheck_envelope e)]
            exact (h n').envelope e
      | use n op =>
        obtain ⟨h1, h2⟩ := ringStep_refines P D hD _ _ (h n) op
        rw [sysRun, absSysRun]
        congr 1
        · show SysOut.used _ = SysOut.used _
          rw [h1]
        · refine ih _ _ fun n' => ?_
          show RingRefines D ((k.put _ _) _) (if n' = n then _ else _)
          unfold SysRing.put
          simp only [service_inj]
          by_cases hn : n' = n
          · subst hn
            rw [if_pos rfl, if_pos rfl]
            exact h2
          · rw [if_neg hn, if_neg hn]
            exact h n'
  refine key ops k _ fun n => ?_
  exact ⟨fun id r => hk n _ (selfcheck_signet id r), fun e => hk n _ (selfcheck_envelope e)⟩

/-- A store is opened, gets a signet, is opened again (the self check fails), another one is opened: the signet is in the first one only. -/
theorem keyring_open_example :
    sysRun toyCodecPrims toyDsd (fun _ _ => none)
      [.opens .none b!"a", .use b!"a" (.storeSignet false { toySigner with key := [] }), .opens .get b!"a", .opens (.other []) b!"a", .opens .none b!"b",
       .use b!"b" (.deleteSignet toySigner.id false), .use b!"a" (.deleteSignet toySigner.id false), .use b!"a" (.deleteSignet toySigner.id false)] =
      [.opened, .used .done, .refused, .refused, .opened, .used (.failed .notFound), .used .done, .used (.failed .notFound)] := by
  rfl

end Jess
