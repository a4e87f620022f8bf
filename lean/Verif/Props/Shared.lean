import Verif.Model.Shared
import Verif.Lemmas.Prepare
import Verif.Props.Signatures
import Verif.Model.WireSession

/-! # Sessions that are prepared at the same time from one trust store (C75) -/

namespace Jess

/-- No thread is between the two assignments of `SetLoadedKeys` for this signet. -/
def Settled {κ : Type} (st : Shared κ) (k : κ) : Prop :=
  ∀ i done todo priv, st.thread i ≠ .half done k todo priv

/-- Loading the key of the signet gives this public and this private key. -/
structure Loads {κ : Type} (P : Prims) (base : κ → Signet) (k : κ) (pub : Bytes) (priv : Option Bytes) : Prop where
  unprotected : (base k).protection = false
  kind : ¬ ((base k).scheme = schemeKey ∨ (base k).scheme = schemePassword)
  notLoaded : (base k).loadedPub = none
  load : (base k).load P = .ok { base k with loadedPub := some pub, loadedPriv := priv }

theorem Loads.unique {κ : Type} {P : Prims} {base : κ → Signet} {k : κ} {pub pub' : Bytes} {priv priv' : Option Bytes}
    (h : Loads P base k pub priv) (h' : Loads P base k pub' priv') : pub = pub' ∧ priv = priv' := by
  have h1 := h.load
  rw [h'.load] at h1
  have h2 := Except.ok.inj h1
  constructor
  · have := congrArg Signet.loadedPub h2; simpa using this.symm
  · have := congrArg Signet.loadedPriv h2; simpa using this.symm

theorem load_shape {P : Prims} {s l : Signet} (hp : s.loadedPub = none) (h : s.load P = .ok l) :
    ∃ pub priv, l = { s with loadedPub := some pub, loadedPriv := priv } := by
  unfold Signet.load at h
  rw [if_neg (by simp [hp])] at h
  split at h
  · cases h
  · split at h
    · cases h
    · split at h
      · split at h
        · cases h
        · rename_i pub priv _; cases h; exact ⟨pub, priv, rfl⟩
      · cases h

theorem Loads.prep {κ : Type} {P : Prims} {base : κ → Signet} {k : κ} {pub : Bytes} {priv : Option Bytes} (h : Loads P base k pub priv) :
    finishPrep P (base k) = .ok { base k with loadedPub := some pub, loadedPriv := priv } := by
  unfold finishPrep
  rw [if_neg (by simp [h.unprotected]), if_neg h.kind, h.load]

/-- The state of a thread, compared with what it does alone. -/
def ThreadOk {κ : Type} (P : Prims) (base : κ → Signet) (st : Shared κ) (prog : List κ) : Prep κ → Prop
  | .next done todo => done ++ todo = prog ∧ ∀ k ∈ done, (∃ o, finishPrep P (base k) = .ok o) ∧ ((base k).scheme = schemeKey ∨ (base k).scheme = schemePassword ∨ (st.obj k).pub.isSome = true)
  | .loaded done k todo pub priv => done ++ k :: todo = prog ∧ Loads P base k pub priv ∧
      ∀ k ∈ done, (∃ o, finishPrep P (base k) = .ok o) ∧ ((base k).scheme = schemeKey ∨ (base k).scheme = schemePassword ∨ (st.obj k).pub.isSome = true)
  | .half done k todo priv => done ++ k :: todo = prog ∧ (∃ pub, Loads P base k pub priv ∧ (st.obj k).pub = some pub) ∧
      ∀ k ∈ done, (∃ o, finishPrep P (base k) = .ok o) ∧ ((base k).scheme = schemeKey ∨ (base k).scheme = schemePassword ∨ (st.obj k).pub.isSome = true)
  | .ready ks => ks = prog ∧ ∀ k ∈ ks, (∃ o, finishPrep P (base k) = .ok o) ∧ ((base k).scheme = schemeKey ∨ (base k).scheme = schemePassword ∨ (st.obj k).pub.isSome = true)
  | .failed e => ∃ done k todo, prog = done ++ k :: todo ∧ (∀ x ∈ done, ∃ o, finishPrep P (base x) = .ok o) ∧ finishPrep P (base k) = .error e

/-- The state of an object. -/
def ObjOk {κ : Type} (P : Prims) (base : κ → Signet) (st : Shared κ) (k : κ) : Prop :=
  st.obj k = { pub := (base k).loadedPub, priv := (base k).loadedPriv } ∨
  ∃ pub priv, Loads P base k pub priv ∧
    (st.obj k = { pub := some pub, priv := priv } ∨
     st.obj k = { pub := some pub, priv := (base k).loadedPriv } ∧ ∃ i done todo, st.thread i = .half done k todo priv)

structure SharedInv {κ : Type} (P : Prims) (base : κ → Signet) (prog : Nat → List κ) (st : Shared κ) : Prop where
  obj : ∀ k, ObjOk P base st k
  thread : ∀ i, ThreadOk P base st (prog i) (st.thread i)

theorem ThreadOk.mono {κ : Type} {P : Prims} {base : κ → Signet} {st st' : Shared κ} {prog : List κ} {p : Prep κ}
    (hm : ∀ k pub, (st.obj k).pub = some pub → (st'.obj k).pub = some pub) (h : ThreadOk P base st prog p) : ThreadOk P base st' prog p := by
  have hd : ∀ k, (st.obj k).pub.isSome = true → (st'.obj k).pub.isSome = true := by
    intro k hk
    obtain ⟨pub, hp⟩ := Option.isSome_iff_exists.mp hk
    rw [hm k pub hp]; rfl
  have hl : ∀ (l : List κ), (∀ k ∈ l, (∃ o, finishPrep P (base k) = .ok o) ∧ ((base k).scheme = schemeKey ∨ (base k).scheme = schemePassword ∨ (st.obj k).pub.isSome = true)) →
      ∀ k ∈ l, (∃ o, finishPrep P (base k) = .ok o) ∧ ((base k).scheme = schemeKey ∨ (base k).scheme = schemePassword ∨ (st'.obj k).pub.isSome = true) := by
    intro l h k hk
    obtain ⟨h1, h2⟩ := h k hk
    exact ⟨h1, h2.imp id (fun x => x.imp id (hd k))⟩
  cases p with
  | next done todo => exact ⟨h.1, hl _ h.2⟩
  | loaded done k todo pub priv => exact ⟨h.1, h.2.1, hl _ h.2.2⟩
  | half done k todo priv =>
    obtain ⟨h1, ⟨pub, h2, h3⟩, h4⟩ := h
    exact ⟨h1, ⟨pub, h2, hm _ _ h3⟩, hl _ h4⟩
  | ready ks => exact ⟨h.1, hl _ h.2⟩
  | failed e => exact h

theorem start_inv {κ : Type} (P : Prims) (base : κ → Signet) (prog : Nat → List κ) : SharedInv P base prog (Shared.start base prog) where
  obj := fun _ => Or.inl rfl
  thread := fun i => ⟨by simp [], by simp⟩

theorem prepNext_ok {κ : Type} {P : Prims} {base : κ → Signet} {st : Shared κ} {prog done todo : List κ} {k : κ}
    (hobj : ObjOk P base st k) (h : ThreadOk P base st prog (.next done (k :: todo))) :
    ThreadOk P base st prog (prepNext P done todo k (st.signet base k)) := by
  obtain ⟨h1, h2⟩ := h
  have happ : (done ++ [k]) ++ todo = prog := by rw [← h1]; simp
  have hcons : ∀ x ∈ done ++ [k], x ∈ done ∨ x = k := by intro x hx; simpa using hx
  have hnext : (∃ o, finishPrep P (base k) = .ok o) → ((base k).scheme = schemeKey ∨ (base k).scheme = schemePassword ∨ (st.obj k).pub.isSome = true) →
      ThreadOk P base st prog (.next (done ++ [k]) todo) := by
    intro a b
    refine ⟨happ, ?_⟩
    intro x hx
    rcases hcons x hx with hx | rfl
    · exact h2 x hx
    · exact ⟨a, b⟩
  unfold prepNext
  by_cases hp : (base k).protection = true
  · rw [if_pos (show (st.signet base k).protection = true from hp)]
    refine ⟨done, k, todo, h1.symm, fun x hx => (h2 x hx).1, ?_⟩
    unfold finishPrep; rw [if_pos hp]
  · rw [if_neg (show ¬ (st.signet base k).protection = true from hp)]
    by_cases hk : (base k).scheme = schemeKey ∨ (base k).scheme = schemePassword
    · rw [if_pos (show (st.signet base k).scheme = schemeKey ∨ (st.signet base k).scheme = schemePassword from hk)]
      refine hnext ⟨base k, ?_⟩ (by rcases hk with a | a <;> simp [a])
      unfold finishPrep; rw [if_neg hp, if_pos hk]
    · rw [if_neg (show ¬ ((st.signet base k).scheme = schemeKey ∨ (st.signet base k).scheme = schemePassword) from hk)]
      by_cases hs : (st.obj k).pub.isSome = true
      · rw [if_pos (show (st.signet base k).loadedPub.isSome = true from hs)]
        refine hnext ?_ (Or.inr (Or.inr hs))
        rcases hobj with ho | ⟨pub, priv, hl, _⟩
        · rw [ho] at hs
          refine ⟨base k, ?_⟩
          unfold finishPrep Signet.load
          rw [if_neg hp, if_neg hk, if_pos hs]
        · exact ⟨_, hl.prep⟩
      · rw [if_neg (show ¬ (st.signet base k).loadedPub.isSome = true from hs)]
        have ho : st.obj k = { pub := (base k).loadedPub, priv := (base k).loadedPriv } := by
          rcases hobj with ho | ⟨pub, priv, hl, ho | ⟨ho, _⟩⟩
          · exact ho
          · rw [ho] at hs; simp at hs
          · rw [ho] at hs; simp at hs
        have hn : (base k).loadedPub = none := by
          rw [ho] at hs; simpa using hs
        have hsig : st.signet base k = base k := by unfold Shared.signet; rw [ho]
        rw [hsig]
        cases hl : (base k).load P with
        | error e =>
          refine ⟨done, k, todo, h1.symm, fun x hx => (h2 x hx).1, ?_⟩
          unfold finishPrep; rw [if_neg hp, if_neg hk, hl]
        | ok l =>
          obtain ⟨pub, priv, rfl⟩ := load_shape hn hl
          exact ⟨h1, ⟨by simpa using hp, hk, hn, hl⟩, h2⟩

theorem step_inv {κ : Type} [DecidableEq κ] {P : Prims} {base : κ → Signet} {prog : Nat → List κ} {st : Shared κ} (i : Nat)
    (h : SharedInv P base prog st) : SharedInv P base prog (st.step P base i) := by
  have hi := h.thread i
  unfold Shared.step
  dsimp only
  split
  · -- no more signets
    rename_i done hd
    rw [hd] at hi
    refine ⟨?_, ?_⟩
    · intro k
      rcases h.obj k with ho | ⟨pub, priv, hl, ho | ⟨ho, j, d, t, hj⟩⟩
      · exact Or.inl ho
      · exact Or.inr ⟨pub, priv, hl, Or.inl ho⟩
      · refine Or.inr ⟨pub, priv, hl, Or.inr ⟨ho, j, d, t, ?_⟩⟩
        dsimp only
        rw [if_neg (by rintro rfl; rw [hd] at hj; cases hj)]; exact hj
    · intro j
      dsimp only
      by_cases hj : j = i
      · subst hj
        rw [if_pos rfl]
        exact ⟨by simpa using hi.1, hi.2⟩
      · rw [if_neg hj]
        exact (h.thread j).mono (fun _ _ x => x)
  · -- the next signet
    rename_i done k todo hd
    rw [hd] at hi
    have hn := prepNext_ok (h.obj k) hi
    refine ⟨?_, ?_⟩
    · intro k'
      rcases h.obj k' with ho | ⟨pub, priv, hl, ho | ⟨ho, j, d, t, hj⟩⟩
      · exact Or.inl ho
      · exact Or.inr ⟨pub, priv, hl, Or.inl ho⟩
      · refine Or.inr ⟨pub, priv, hl, Or.inr ⟨ho, j, d, t, ?_⟩⟩
        dsimp only
        rw [if_neg (by rintro rfl; rw [hd] at hj; cases hj)]; exact hj
    · intro j
      dsimp only
      by_cases hj : j = i
      · subst hj
        rw [if_pos rfl]
        exact hn.mono (fun _ _ x => x)
      · rw [if_neg hj]
        exact (h.thread j).mono (fun _ _ x => x)
  · -- the public key is set
    rename_i done k todo pub priv hd
    rw [hd] at hi
    obtain ⟨hp, hl, hdone⟩ := hi
    have hm : ∀ k' p, (st.obj k').pub = some p → ((if k' = k then { st.obj k with pub := some pub } else st.obj k' : Loaded)).pub = some p := by
      intro k' p hk'
      by_cases hkk : k' = k
      · subst hkk
        rw [if_pos rfl]
        rcases h.obj k' with ho | ⟨pub', priv', hl', ho | ⟨ho, _⟩⟩
        · rw [ho] at hk'; simp [hl.notLoaded] at hk'
        · rw [ho] at hk'; cases hk'; rw [(hl.unique hl').1]
        · rw [ho] at hk'; cases hk'; rw [(hl.unique hl').1]
      · rw [if_neg hkk]; exact hk'
    refine ⟨?_, ?_⟩
    · intro k'
      by_cases hkk : k' = k
      · subst hkk
        refine Or.inr ⟨pub, priv, hl, ?_⟩
        dsimp only
        rw [if_pos rfl]
        rcases h.obj k' with ho | ⟨pub', priv', hl', ho | ⟨ho, _⟩⟩
        · right; rw [ho]; exact ⟨rfl, i, done, todo, by simp⟩
        · left; rw [ho, (hl.unique hl').2]
        · right; rw [ho]; exact ⟨rfl, i, done, todo, by simp⟩
      · unfold ObjOk
        dsimp only
        rw [if_neg hkk]
        rcases h.obj k' with ho | ⟨pub', priv', hl', ho | ⟨ho, j, d, t, hj⟩⟩
        · exact Or.inl ho
        · exact Or.inr ⟨pub', priv', hl', Or.inl ho⟩
        · refine Or.inr ⟨pub', priv', hl', Or.inr ⟨ho, j, d, t, ?_⟩⟩
          rw [if_neg (by rintro rfl; rw [hd] at hj; cases hj)]; exact hj
    · intro j
      dsimp only
      by_cases hj : j = i
      · subst hj
        rw [if_pos rfl]
        have : ThreadOk P base { obj := fun k' => if k' = k then { st.obj k with pub := some pub } else st.obj k', thread := st.thread } (prog j) (.loaded done k todo pub priv) :=
          ThreadOk.mono (st := st) hm ⟨hp, hl, hdone⟩
        exact ⟨hp, ⟨pub, hl, by simp⟩, this.2.2⟩
      · rw [if_neg hj]
        exact (h.thread j).mono hm
  · -- the private key is set
    rename_i done k todo priv hd
    rw [hd] at hi
    obtain ⟨hp, ⟨pub, hl, hpub⟩, hdone⟩ := hi
    have hm : ∀ k' p, (st.obj k').pub = some p → ((if k' = k then { st.obj k with priv := priv } else st.obj k' : Loaded)).pub = some p := by
      intro k' p hk'
      by_cases hkk : k' = k
      · subst hkk; rw [if_pos rfl]; exact hk'
      · rw [if_neg hkk]; exact hk'
    refine ⟨?_, ?_⟩
    · intro k'
      by_cases hkk : k' = k
      · subst hkk
        refine Or.inr ⟨pub, priv, hl, Or.inl ?_⟩
        dsimp only
        rw [if_pos rfl, hpub]
      · unfold ObjOk
        dsimp only
        rw [if_neg hkk]
        rcases h.obj k' with ho | ⟨pub', priv', hl', ho | ⟨ho, j, d, t, hj⟩⟩
        · exact Or.inl ho
        · exact Or.inr ⟨pub', priv', hl', Or.inl ho⟩
        · refine Or.inr ⟨pub', priv', hl', Or.inr ⟨ho, j, d, t, ?_⟩⟩
          rw [if_neg (by rintro rfl; rw [hd] at hj; cases hj; exact hkk rfl)]; exact hj
    · intro j
      dsimp only
      by_cases hj : j = i
      · subst hj
        rw [if_pos rfl]
        have hdone' : ThreadOk P base { obj := fun k' => if k' = k then { st.obj k with priv := priv } else st.obj k', thread := st.thread } (prog j) (.half done k todo priv) :=
          ThreadOk.mono (st := st) hm ⟨hp, ⟨pub, hl, hpub⟩, hdone⟩
        refine ⟨by rw [← hp]; simp, ?_⟩
        intro x hx
        rcases List.mem_append.mp hx with hx | hx
        · exact hdone'.2.2 x hx
        · obtain rfl : x = k := by simpa using hx
          exact ⟨⟨_, hl.prep⟩, Or.inr (Or.inr (by simp [hpub]))⟩
      · rw [if_neg hj]
        exact (h.thread j).mono hm
  · exact h
  · exact h

theorem run_inv {κ : Type} [DecidableEq κ] {P : Prims} {base : κ → Signet} {prog : Nat → List κ} :
    ∀ (is : List Nat) (st : Shared κ), SharedInv P base prog st → SharedInv P base prog (st.run P base is)
  | [], _, h => h
  | i :: is, _, h => run_inv is _ (step_inv i h)

/-- A signet which no thread is about to change is as good as the one in the store. -/
theorem settled_prep {κ : Type} {P : Prims} {base : κ → Signet} {prog : Nat → List κ} {st : Shared κ} {k : κ}
    (h : SharedInv P base prog st) (hs : Settled st k) : finishPrep P (st.signet base k) = finishPrep P (base k) := by
  rcases h.obj k with ho | ⟨pub, priv, hl, ho | ⟨_, i, d, t, hi⟩⟩
  · unfold Shared.signet; rw [ho]
  · rw [hl.prep]
    unfold Shared.signet
    rw [ho]
    unfold finishPrep Signet.load
    dsimp only
    rw [if_neg (by simp [hl.unprotected]), if_neg hl.kind, if_pos (by rfl)]
  · exact absurd hi (hs _ _ _ _)

theorem settled_ready {κ : Type} {P : Prims} {base : κ → Signet} {prog : Nat → List κ} {st : Shared κ} {k : κ}
    (h : SharedInv P base prog st) (hs : Settled st k) (hok : ∃ o, finishPrep P (base k) = .ok o)
    (hd : (base k).scheme = schemeKey ∨ (base k).scheme = schemePassword ∨ (st.obj k).pub.isSome = true) :
    finishPrep P (base k) = .ok (st.signet base k) := by
  rcases h.obj k with ho | ⟨pub, priv, hl, ho | ⟨_, i, d, t, hi⟩⟩
  · obtain ⟨o, hok⟩ := hok
    obtain ⟨hp, _, _, _, ⟨hk, rfl⟩ | ⟨hk1, hk2, hl⟩⟩ := finishPrep_spec hok
    · rw [hok]; unfold Shared.signet; rw [ho]
    · have hs' : (base k).loadedPub.isSome = true := by
        rcases hd with a | a | a
        · exact absurd a hk1
        · exact absurd a hk2
        · rw [ho] at a; exact a
      unfold Signet.load at hl
      rw [if_pos hs'] at hl
      cases hl
      rw [hok]; unfold Shared.signet; rw [ho]
  · rw [hl.prep]; unfold Shared.signet; rw [ho]
  · exact absurd hi (hs _ _ _ _)

/-- **C75.** Whatever the schedule, a session gets ready only if all its signets can be prepared, and preparing fails with the error that it
fails with alone: the error of the first signet that cannot be prepared. -/
theorem concurrent_outcome {κ : Type} [DecidableEq κ] (P : Prims) (base : κ → Signet) (prog : Nat → List κ) (schedule : List Nat) (i : Nat) :
    (∀ ks, ((Shared.start base prog).run P base schedule).thread i = .ready ks →
      ks = prog i ∧ ∀ k ∈ prog i, ∃ o, finishPrep P (base k) = .ok o) ∧
    (∀ e, ((Shared.start base prog).run P base schedule).thread i = .failed e →
      ∃ before k after, prog i = before ++ k :: after ∧ (∀ x ∈ before, ∃ o, finishPrep P (base x) = .ok o) ∧ finishPrep P (base k) = .error e) := by
  have h := (run_inv (P := P) schedule _ (start_inv P base prog)).thread i
  constructor
  · intro ks hk
    rw [hk] at h
    obtain ⟨rfl, h2⟩ := h
    exact ⟨rfl, fun k hk => (h2 k hk).1⟩
  · intro e he
    rw [he] at h
    exact h

/-- **C75.** A signet of a session that is ready is the one a session gets alone, at every moment when no other session is between setting
the public and the private key of that signet. Missing: this last condition, see `shared_store_refuted`. -/
theorem prepared_signets_partial {κ : Type} [DecidableEq κ] (P : Prims) (base : κ → Signet) (prog : Nat → List κ) (schedule : List Nat)
    (i : Nat) (ks : List κ) (hready : ((Shared.start base prog).run P base schedule).thread i = .ready ks) (k : κ) (hk : k ∈ prog i)
    (hs : Settled ((Shared.start base prog).run P base schedule) k) :
    if (base k).scheme = schemeKey ∨ (base k).scheme = schemePassword
    then ((Shared.start base prog).run P base schedule).signet base k = base k
    else (base k).load P = .ok (((Shared.start base prog).run P base schedule).signet base k) := by
  have hinv := run_inv (P := P) schedule _ (start_inv P base prog)
  have h := hinv.thread i
  rw [hready] at h
  obtain ⟨rfl, h2⟩ := h
  have h3 := settled_ready hinv hs (h2 k hk).1 (h2 k hk).2
  obtain ⟨_, _, _, _, ⟨hkind, h5⟩ | ⟨h5, h6, h7⟩⟩ := finishPrep_spec h3
  · rw [if_pos hkind]; exact h5
  · rw [if_neg (by simp [h5, h6])]; exact h7

/-- **C75.** The public key of a signet of a session that is ready is the right one at every moment; and the private key is the right one or
the one from before loading. So recipients and the signets signatures are verified with, which have no private key, are never affected. -/
theorem prepared_public_keys {κ : Type} [DecidableEq κ] (P : Prims) (base : κ → Signet) (prog : Nat → List κ) (schedule : List Nat)
    (i : Nat) (ks : List κ) (hready : ((Shared.start base prog).run P base schedule).thread i = .ready ks) (k : κ) (hk : k ∈ prog i)
    (hkind : (base k).scheme ≠ schemeKey ∧ (base k).scheme ≠ schemePassword) :
    ∃ alone, (base k).load P = .ok alone ∧
      (((Shared.start base prog).run P base schedule).signet base k = alone ∨
       ((Shared.start base prog).run P base schedule).signet base k = { alone with loadedPriv := (base k).loadedPriv }) := by
  have hinv := run_inv (P := P) schedule _ (start_inv P base prog)
  have h := hinv.thread i
  rw [hready] at h
  obtain ⟨rfl, h2⟩ := h
  obtain ⟨⟨o, ho⟩, hd⟩ := h2 k hk
  have hs : (((Shared.start base prog).run P base schedule).obj k).pub.isSome = true := by
    rcases hd with a | a | a
    · exact absurd a hkind.1
    · exact absurd a hkind.2
    · exact a
  rcases hinv.obj k with hobj | ⟨pub, priv, hl, hobj | ⟨hobj, _⟩⟩
  · refine ⟨base k, ?_, Or.inl (by unfold Shared.signet; rw [hobj])⟩
    rw [hobj] at hs
    unfold Signet.load
    rw [if_pos hs]
  · exact ⟨_, hl.load, Or.inl (by unfold Shared.signet; rw [hobj])⟩
  · exact ⟨_, hl.load, Or.inr (by unfold Shared.signet; rw [hobj])⟩

/-- **C75.** A signet that no other session uses is not affected. The directory trust store reads the signet from its file for every
session (the threads use different objects). -/
theorem own_signets_safe {κ : Type} [DecidableEq κ] (P : Prims) (base : κ → Signet) (prog : Nat → List κ) (schedule : List Nat)
    (i : Nat) (ks : List κ) (hready : ((Shared.start base prog).run P base schedule).thread i = .ready ks) (k : κ) (hk : k ∈ prog i)
    (hown : ∀ j, k ∈ prog j → j = i) (hkind : (base k).scheme ≠ schemeKey ∧ (base k).scheme ≠ schemePassword) :
    (base k).load P = .ok (((Shared.start base prog).run P base schedule).signet base k) := by
  have hinv := run_inv (P := P) schedule _ (start_inv P base prog)
  have hs : Settled ((Shared.start base prog).run P base schedule) k := by
    intro j done todo priv hj
    have h := hinv.thread j
    rw [hj] at h
    obtain rfl := hown j (by rw [← h.1]; simp)
    rw [hready] at hj
    cases hj
  have := prepared_signets_partial P base prog schedule i ks hready k hk hs
  rwa [if_neg (by simp [hkind])] at this

/-- **C75.** A signet whose key was loaded before is not changed by any session, in any schedule. -/
theorem loaded_signets_safe {κ : Type} [DecidableEq κ] (P : Prims) (base : κ → Signet) (prog : Nat → List κ) (schedule : List Nat) (k : κ)
    (hl : (base k).loadedPub.isSome = true) : ((Shared.start base prog).run P base schedule).signet base k = base k := by
  have hinv := run_inv (P := P) schedule _ (start_inv P base prog)
  rcases hinv.obj k with ho | ⟨pub, priv, h, _⟩
  · unfold Shared.signet; rw [ho]
  · rw [h.notLoaded] at hl; cases hl

/-- The world with the in-memory trust store which holds these signets. -/
def memWorld (w : World) (base : Bytes × Bool → Signet) (held : Bytes × Bool → Bool) (st : Shared (Bytes × Bool)) : World :=
  { w with store := some (Shared.get base held st) }

theorem nameFromStore_shared (w : World) (base : Bytes × Bool → Signet) (held : Bytes × Bool → Bool) (st st' : Shared (Bytes × Bool)) (s : Signet) :
    nameFromStore (memWorld w base held st) s = nameFromStore (memWorld w base held st') s := by
  unfold nameFromStore memWorld Shared.get
  dsimp only
  cases held (s.id, false) <;> rfl

theorem fillPassword_shared (w : World) (base : Bytes × Bool → Signet) (held : Bytes × Bool → Bool) (st st' : Shared (Bytes × Bool)) (s : Signet)
    (create : Bool) (level : Int) :
    fillPassword (memWorld w base held st) s create level = fillPassword (memWorld w base held st') s create level := by
  unfold fillPassword
  rw [nameFromStore_shared w base held st st' s]
  rfl

theorem prepOne_shared {P : Prims} {w : World} {base : Bytes × Bool → Signet} {held : Bytes × Bool → Bool} {st st' : Shared (Bytes × Bool)}
    (h : ∀ k, held k = true → finishPrep P (st.signet base k) = finishPrep P (st'.signet base k)) (level : Int) (flag : Bool) (s : Signet) :
    prepOne P (memWorld w base held st) level flag s = prepOne P (memWorld w base held st') level flag s := by
  unfold prepOne
  rw [fillPassword_shared w base held st st']
  have hf : ∀ r, (fetchSignet (memWorld w base held st) r s >>= finishPrep P) = (fetchSignet (memWorld w base held st') r s >>= finishPrep P) := by
    intro r
    unfold fetchSignet memWorld Shared.get
    dsimp only
    by_cases hid : s.id.length = 0
    · rw [if_pos hid, if_pos hid]
    · rw [if_neg hid, if_neg hid]
      cases hh : held (s.id, r) with
      | false => rfl
      | true =>
        rw [if_pos rfl, if_pos rfl]
        dsimp only
        have hsc : (st.signet base (s.id, r)).scheme = (st'.signet base (s.id, r)).scheme := rfl
        rw [hsc]
        split
        · rfl
        · exact h _ hh
  exact congrArg (fun x => if s.key.length = 0 then (if s.scheme = schemePassword then _ else x) else _) (hf _)

theorem prepSignets_shared {P : Prims} {w : World} {base : Bytes × Bool → Signet} {held : Bytes × Bool → Bool} {st st' : Shared (Bytes × Bool)}
    (h : ∀ k, held k = true → finishPrep P (st.signet base k) = finishPrep P (st'.signet base k)) (level : Int) :
    ∀ (l : List Signet) (flag : Bool), prepSignets P (memWorld w base held st) level flag l = prepSignets P (memWorld w base held st') level flag l
  | [], _ => rfl
  | s :: ss, flag => by rw [prepSignets_cons, prepSignets_cons, prepOne_shared h, prepSignets_shared h level ss]

theorem correspondence_shared {P : Prims} {cfg : Config} {w : World} {reg : List Suite} {base : Bytes × Bool → Signet} {held : Bytes × Bool → Bool}
    {st st' : Shared (Bytes × Bool)} (h : ∀ k, held k = true → finishPrep P (st.signet base k) = finishPrep P (st'.signet base k)) (e : Envelope) :
    correspondence P cfg (memWorld w base held st) reg e = correspondence P cfg (memWorld w base held st') reg e := by
  unfold correspondence prepareSignets
  cases loadSuite reg e with
  | error x => rfl
  | ok p =>
    obtain ⟨e, suite⟩ := p
    simp only [ok_bind, prepSignets_shared h]

/-- **C75.** Whatever other sessions have done and are doing: at a moment when none of them is in the middle of setting the keys of a signet,
a session gets from the in-memory trust store what it gets from the store that was never used; so letters are closed, opened and verified
as with a store of its own. Missing: the moments in the middle, see `shared_store_refuted`. -/
theorem shared_store_partial (P : Prims) (cfg : Config) (w : World) (reg : List Suite) (base : Bytes × Bool → Signet)
    (held : Bytes × Bool → Bool) (prog : Nat → List (Bytes × Bool)) (schedule : List Nat)
    (hs : ∀ k, held k = true → Settled ((Shared.start base prog).run P base schedule) k) :
    (∀ e, correspondence P cfg (memWorld w base held ((Shared.start base prog).run P base schedule)) reg e =
      correspondence P cfg (memWorld w base held (Shared.start base prog)) reg e) ∧
    (∀ e, wireCorrespondence P cfg (memWorld w base held ((Shared.start base prog).run P base schedule)) reg e =
      wireCorrespondence P cfg (memWorld w base held (Shared.start base prog)) reg e) ∧
    (∀ reqs l, Letter.open P cfg (memWorld w base held ((Shared.start base prog).run P base schedule)) reg reqs l =
      Letter.open P cfg (memWorld w base held (Shared.start base prog)) reg reqs l) ∧
    (∀ reqs l, Letter.verify P cfg (memWorld w base held ((Shared.start base prog).run P base schedule)) reg reqs l =
      Letter.verify P cfg (memWorld w base held (Shared.start base prog)) reg reqs l) := by
  have hinv := run_inv (P := P) schedule _ (start_inv P base prog)
  have h : ∀ k, held k = true → finishPrep P (((Shared.start base prog).run P base schedule).signet base k) =
      finishPrep P ((Shared.start base prog).signet base k) := by
    intro k hk
    rw [settled_prep hinv (hs k hk)]
    rfl
  have hc := correspondence_shared (cfg := cfg) (w := w) (reg := reg) h
  refine ⟨hc, ?_, ?_, ?_⟩
  · intro e
    unfold wireCorrespondence
    rw [hc]
  · intro reqs l
    unfold Letter.open
    cases l.envelope reg reqs with
    | error x => rfl
    | ok e => simp only [ok_bind, hc]
  · intro reqs l
    unfold Letter.verify
    cases l.envelope reg reqs with
    | error x => rfl
    | ok e => simp only [ok_bind, hc]

/-- The signets of the examples. -/
def toyBase (k : Bytes × Bool) : Signet := match toyStore k.1 k.2 with | .ok s => s | .error _ => {}

def toyHeld (k : Bytes × Bool) : Bool := match toyStore k.1 k.2 with | .ok _ => true | .error _ => false

/-- Two sessions that both need these signets. -/
def toyTwo (ids : List Bytes) (i : Nat) : List (Bytes × Bool) := if i < 2 then ids.map (fun id => (id, false)) else []

def toyAfter (ids : List Bytes) (schedule : List Nat) : Shared (Bytes × Bool) :=
  (Shared.start toyBase (toyTwo ids)).run toyPrims toyBase schedule

/-- Closes with the shared store in this state. -/
def sharedClose (st : Shared (Bytes × Bool)) (e : Envelope) (data : Bytes) : Res Letter := do
  let s ← correspondence toyPrims toyConfig (memWorld toyWorld toyBase toyHeld st) suiteRegistry e
  (s.close toyPrims toyConfig toyRng s.initState data).2

/-- **C75 is refuted**: two sessions prepare at the same time, with the signet of one in-memory trust store. The first has set the public key,
not yet the private key. The second takes this as loaded and is ready; signing fails, and opening a letter to the recipient crashes. With a
store of its own, and as soon as the first session has also set the private key, it works. -/
theorem shared_store_refuted :
    (toyAfter [b!"alice"] [0, 0, 1, 1]).thread 1 = .ready [(b!"alice", false)] ∧
    (match sharedClose (toyAfter [b!"alice"] [0, 0, 1, 1]) (toyEnvelope b!"v2" [] [b!"alice"] [b!"bob"]) b!"hello" with
      | .error .invalidKey => true | _ => false) = true ∧
    (match sharedClose (toyAfter [b!"alice"] [0, 0, 1, 1, 0]) (toyEnvelope b!"v2" [] [b!"alice"] [b!"bob"]) b!"hello" with
      | .ok _ => true | _ => false) = true ∧
    (toyAfter [b!"bob"] [0, 0, 1, 1]).thread 1 = .ready [(b!"bob", false)] ∧
    (match toyClose (toyEnvelope b!"v2" [] [b!"alice"] [b!"bob"]) b!"hello" with
      | .ok l =>
        decide (l.open toyPrims toyConfig (memWorld toyWorld toyBase toyHeld (toyAfter [b!"bob"] [0, 0, 1, 1])) suiteRegistry none = .error .panic) &&
        decide (l.open toyPrims toyConfig (memWorld toyWorld toyBase toyHeld (toyAfter [b!"bob"] [0, 0, 1, 1, 0])) suiteRegistry none = .ok b!"hello")
      | .error _ => false) = true := by
  decide +kernel

/-- The hypotheses are met: two sessions are prepared interleaved, both get ready, and nobody is in the middle of setting keys. -/
theorem shared_example : (toyAfter [b!"alice", b!"bob"] [0, 1, 1, 0, 0, 1, 0, 0, 1, 1, 0, 1, 0]).thread 0 = .ready (toyTwo [b!"alice", b!"bob"] 0) ∧
    (toyAfter [b!"alice", b!"bob"] [0, 1, 1, 0, 0, 1, 0, 0, 1, 1, 0, 1, 0]).thread 1 = .ready (toyTwo [b!"alice", b!"bob"] 1) ∧
    (∀ k, Settled (toyAfter [b!"alice", b!"bob"] [0, 1, 1, 0, 0, 1, 0, 0, 1, 1, 0, 1, 0]) k) ∧
    (match toyBase (b!"alice", false) |>.load toyPrims with | .ok l => l.loadedPriv.isSome | .error _ => false) = true := by
  have h0 : (toyAfter [b!"alice", b!"bob"] [0, 1, 1, 0, 0, 1, 0, 0, 1, 1, 0, 1, 0]).thread 0 = .ready (toyTwo [b!"alice", b!"bob"] 0) := by decide +kernel
  have h1 : (toyAfter [b!"alice", b!"bob"] [0, 1, 1, 0, 0, 1, 0, 0, 1, 1, 0, 1, 0]).thread 1 = .ready (toyTwo [b!"alice", b!"bob"] 1) := by decide +kernel
  refine ⟨h0, h1, ?_, by decide +kernel⟩
  intro k i done todo priv h
  match i with
  | 0 => rw [h0] at h; cases h
  | 1 => rw [h1] at h; cases h
  | n + 2 =>
    have hstep : ∀ (st : Shared (Bytes × Bool)) (j : Nat), j < 2 → (st.step toyPrims toyBase j).thread (n + 2) = st.thread (n + 2) := by
      intro st j hj
      have hne : ¬ n + 2 = j := by omega
      unfold Shared.step
      dsimp only
      split <;> simp [hne]
    have hrun : ∀ (is : List Nat) (st : Shared (Bytes × Bool)), (∀ j ∈ is, j < 2) → (st.run toyPrims toyBase is).thread (n + 2) = st.thread (n + 2) := by
      intro is
      induction is with
      | nil => intro st _; rfl
      | cons a is ih =>
        intro st hi
        rw [Shared.run, ih _ (fun j hj => hi j (by simp [hj])), hstep st a (hi a (by simp))]
    unfold toyAfter at h
    rw [hrun _ _ (by decide)] at h
    cases h

end Jess
