import Verif.Model.Session
import Verif.Lemmas.Basic
import Verif.Props.Requirements

/-! Lemmas about session creation: an exact characterisation of `newSession`. -/

namespace Jess

open Requirements

/-- The security level that is demanded of every part of a session: the global minimum if set, otherwise the envelope's
level if set, otherwise the default. -/
def demandedLevel (cfg : Config) (envLevel : Int) : Int :=
  if cfg.minLevel > 0 then cfg.minLevel else if envLevel > 0 then envLevel else cfg.defaultLevel

theorem checkLevel_ok_iff (cfg : Config) (el l : Int) : checkLevel cfg el l = .ok () ↔ demandedLevel cfg el ≤ l := by
  unfold checkLevel demandedLevel
  split
  · split <;> simp <;> omega
  · split
    · split <;> simp <;> omega
    · split <;> simp <;> omega

theorem foldRes_nil {α β : Type} (f : β → α → Res β) (b : β) : foldRes f b [] = .ok b := rfl

theorem foldRes_cons_ok_iff {α β : Type} (f : β → α → Res β) (b c : β) (a : α) (as : List α) :
    foldRes f b (a :: as) = .ok c ↔ ∃ b', f b a = .ok b' ∧ foldRes f b' as = .ok c := by
  rw [foldRes]
  cases f b a with
  | error e => simp
  | ok x => simp

/-- A calculated level passes the check. -/
def LevelOK (cfg : Config) (el c : Int) : Prop := c = 0 ∨ (0 < c ∧ demandedLevel cfg el ≤ c)

/-- How one calculated level changes the session levels. -/
def updLevels (lv : Levels) (c : Int) : Levels :=
  if c = 0 then lv
  else { level := if lv.level = 0 ∨ c < lv.level then c else lv.level, max := if c > lv.max then c else lv.max }

theorem applyLevel_ok_iff (cfg : Config) (el : Int) (lv lv' : Levels) (c : Int) :
    applyLevel cfg el lv c = .ok lv' ↔ LevelOK cfg el c ∧ lv' = updLevels lv c := by
  unfold applyLevel LevelOK updLevels
  by_cases h0 : c = 0
  · simp [h0, eq_comm]
  · by_cases hn : c < 0
    · simp [h0, hn]; omega
    · simp only [h0, hn, if_false, false_or, bind_ok_iff]
      constructor
      · rintro ⟨u, hu, h⟩
        rw [checkLevel_ok_iff] at hu
        simp only [Except.ok.injEq] at h
        exact ⟨⟨by omega, hu⟩, h.symm⟩
      · rintro ⟨⟨_, h1⟩, h2⟩
        exact ⟨(), (checkLevel_ok_iff _ _ _).mpr h1, by rw [h2]⟩

theorem calcAndCheck_ok_iff (P : Prims) (cfg : Config) (el : Int) (lv lv' : Levels) (t : Option ToolInst)
    (s : Option Signet) :
    calcAndCheck P cfg el lv t s = .ok lv' ↔
      ∃ c, calcLevel P cfg t s = .ok c ∧ LevelOK cfg el c ∧ lv' = updLevels lv c := by
  simp only [calcAndCheck, bind_ok_iff, applyLevel_ok_iff]

/-- Folding checks over a list: every calculated level passes, and the levels are updated in order. -/
theorem foldRes_levels {α : Type} (P : Prims) (cfg : Config) (el : Int) (f : α → Option ToolInst × Option Signet) :
    ∀ (xs : List α) (lv lv' : Levels),
    foldRes (fun lv x => calcAndCheck P cfg el lv (f x).1 (f x).2) lv xs = .ok lv' ↔
      ∃ cs : List Int, xs.map (fun x => calcLevel P cfg (f x).1 (f x).2) = cs.map Except.ok ∧ (∀ c ∈ cs, LevelOK cfg el c) ∧
        lv' = cs.foldl updLevels lv
  | [], lv, lv' => by
    rw [foldRes_nil]
    constructor
    · intro h; exact ⟨[], rfl, by simp, by simpa using h.symm⟩
    · rintro ⟨cs, h1, h2, h3⟩
      cases cs with
      | nil => simp [h3]
      | cons c cs => simp at h1
  | x :: xs, lv, lv' => by
    rw [foldRes_cons_ok_iff]
    simp only [calcAndCheck_ok_iff]
    constructor
    · rintro ⟨b, ⟨c, hc, hl, rfl⟩, hr⟩
      obtain ⟨cs, h1, h2, h3⟩ := (foldRes_levels P cfg el f xs _ _).mp hr
      refine ⟨c :: cs, by simp [hc, h1], ?_, by simpa using h3⟩
      intro d hd
      rcases List.mem_cons.mp hd with rfl | hd
      · exact hl
      · exact h2 d hd
    · rintro ⟨cs, h1, h2, h3⟩
      cases cs with
      | nil => simp at h1
      | cons c cs =>
        simp only [List.map_cons, List.cons.injEq] at h1
        exact ⟨_, ⟨c, h1.1, h2 c (by simp), rfl⟩,
          (foldRes_levels P cfg el f xs _ _).mpr ⟨cs, h1.2, fun d hd => h2 d (by simp [hd]), by simpa using h3⟩⟩

/-- At most one tool of the given purpose. -/
def AtMostOne (insts : List ToolInst) (p : Purpose) : Prop := (insts.filter (fun t => t.info.purpose = p)).length ≤ 1

theorem atMostOne_append {as : List ToolInst} {i : ToolInst} {p : Purpose} :
    AtMostOne (as ++ [i]) p ↔ AtMostOne as p ∧ (i.info.purpose = p → ∀ j ∈ as, j.info.purpose ≠ p) := by
  unfold AtMostOne
  rw [List.filter_append, List.length_append]
  by_cases h : i.info.purpose = p
  · simp only [h, forall_const]
    have : [i].filter (fun t => decide (t.info.purpose = p)) = [i] := by simp [h]
    rw [this]
    constructor
    · intro hl
      have h0 : (as.filter (fun t => decide (t.info.purpose = p))).length = 0 := by simp at hl; simp; exact hl
      refine ⟨by omega, fun j hj hp => ?_⟩
      have := List.length_eq_zero_iff.mp h0
      have hm : j ∈ as.filter (fun t => decide (t.info.purpose = p)) := by simp [hj, hp]
      rw [this] at hm; simp at hm
    · rintro ⟨_, h2⟩
      have : as.filter (fun t => decide (t.info.purpose = p)) = [] := by
        rw [List.filter_eq_nil_iff]; intro j hj; simpa using h2 j hj
      simp [this]
  · have : [i].filter (fun t => decide (t.info.purpose = p)) = [] := by simp [h]
    rw [this]; simp [h]

theorem atMostOne_prefix {as bs : List ToolInst} {p : Purpose} (h : AtMostOne (as ++ bs) p) : AtMostOne as p := by
  unfold AtMostOne at *; rw [List.filter_append, List.length_append] at h; omega

theorem purposeTaken_false_iff (insts : List ToolInst) (p : Purpose) :
    purposeTaken insts p = false ↔ ((p = .keyDerivation ∨ p = .passDerivation) → ∀ j ∈ insts, j.info.purpose ≠ p) := by
  unfold purposeTaken
  cases p <;> simp

/-- The build after the tools `is` were added to `b` and the levels became `lv`. -/
def buildAfter (b : Build) (is : List ToolInst) (lv : Levels) : Build :=
  { insts := b.insts ++ is, reqs := is.foldl (fun r i => addPurpose r i.info.purpose) b.reqs, lv := lv,
    keySize := is.foldl (fun k i => if i.info.keySize > k then i.info.keySize else k) b.keySize,
    requireLevel := b.requireLevel || is.any (fun i => i.info.needsSecurityLevel),
    requireKeySize := b.requireKeySize || is.any (fun i => i.info.needsDefaultKeySize) }

theorem stepTool_ok_iff (P : Prims) (cfg : Config) (e : Envelope) (all : List Bytes) (b b' : Build) (t : Bytes) :
    stepTool P cfg e all b t = .ok b' ↔
      all.count t ≤ 1 ∧ ∃ i c, makeInst t = .ok i ∧ purposeTaken b.insts i.info.purpose = false ∧
        calcLevel P cfg (some i) none = .ok c ∧ LevelOK cfg e.securityLevel c ∧ b' = buildAfter b [i] (updLevels b.lv c) := by
  unfold stepTool
  by_cases hd : all.count t > 1
  · simp [hd]; omega
  · simp only [hd, if_false, bind_ok_iff]
    constructor
    · rintro ⟨i, hi, h⟩
      split at h
      · cases h
      · rename_i hp
        obtain ⟨lv, h1, h2⟩ := bind_ok_iff.mp h
        obtain ⟨c, hc, hl, rfl⟩ := (calcAndCheck_ok_iff _ _ _ _ _ _ _).mp h1
        refine ⟨by omega, i, c, hi, by simpa using hp, hc, hl, ?_⟩
        simp only [Except.ok.injEq] at h2
        rw [← h2]; simp [buildAfter]
    · rintro ⟨_, i, c, hi, hp, hc, hl, rfl⟩
      refine ⟨i, hi, ?_⟩
      rw [hp]
      simp only [Bool.false_eq_true, if_false]
      rw [bind_ok_iff]
      exact ⟨_, (calcAndCheck_ok_iff _ _ _ _ _ _ _).mpr ⟨c, hc, hl, rfl⟩, by simp [buildAfter]⟩

theorem foldRes_tools (P : Prims) (cfg : Config) (e : Envelope) (all : List Bytes) :
    ∀ (ts : List Bytes) (b b' : Build), AtMostOne b.insts .keyDerivation → AtMostOne b.insts .passDerivation →
    (foldRes (stepTool P cfg e all) b ts = .ok b' ↔
      ∃ (is : List ToolInst) (cs : List Int), (∀ t ∈ ts, all.count t ≤ 1) ∧ ts.map makeInst = is.map Except.ok ∧
        AtMostOne (b.insts ++ is) .keyDerivation ∧ AtMostOne (b.insts ++ is) .passDerivation ∧
        is.map (fun i => calcLevel P cfg (some i) none) = cs.map Except.ok ∧ (∀ c ∈ cs, LevelOK cfg e.securityLevel c) ∧
        b' = buildAfter b is (cs.foldl updLevels b.lv))
  | [], b, b', h1, h2 => by
    rw [foldRes_nil]
    constructor
    · intro h
      refine ⟨[], [], by simp, rfl, by simpa using h1, by simpa using h2, rfl, by simp, ?_⟩
      simp only [Except.ok.injEq] at h
      rw [← h]; simp [buildAfter]
    · rintro ⟨is, cs, -, hm, -, -, hc, -, rfl⟩
      cases is with
      | cons i is => simp at hm
      | nil =>
        cases cs with
        | cons c cs => simp at hc
        | nil => simp [buildAfter]
  | t :: ts, b, b', h1, h2 => by
    rw [foldRes_cons_ok_iff]
    simp only [stepTool_ok_iff]
    constructor
    · rintro ⟨b1, ⟨hd, i, c, hi, hp, hc, hl, rfl⟩, hr⟩
      rw [purposeTaken_false_iff] at hp
      have a1 : AtMostOne (buildAfter b [i] (updLevels b.lv c)).insts .keyDerivation :=
        atMostOne_append.mpr ⟨h1, fun hk => by
          intro j hj; have := hp (Or.inl hk) j hj; rwa [hk] at this⟩
      have a2 : AtMostOne (buildAfter b [i] (updLevels b.lv c)).insts .passDerivation :=
        atMostOne_append.mpr ⟨h2, fun hk => by
          intro j hj; have := hp (Or.inr hk) j hj; rwa [hk] at this⟩
      obtain ⟨is, cs, g1, g2, g3, g4, g5, g6, g7⟩ := (foldRes_tools P cfg e all ts _ _ a1 a2).mp hr
      refine ⟨i :: is, c :: cs, ?_, by simp [hi, g2], by simpa [buildAfter] using g3, by simpa [buildAfter] using g4,
        by simp [hc, g5], ?_, ?_⟩
      · intro u hu
        rcases List.mem_cons.mp hu with rfl | hu
        · exact hd
        · exact g1 u hu
      · intro d hd
        rcases List.mem_cons.mp hd with rfl | hd
        · exact hl
        · exact g6 d hd
      · rw [g7]; simp [buildAfter, Bool.or_assoc]
    · rintro ⟨is, cs, g1, g2, g3, g4, g5, g6, g7⟩
      cases is with
      | nil => simp at g2
      | cons i is =>
        cases cs with
        | nil => simp at g5
        | cons c cs =>
          simp only [List.map_cons, List.cons.injEq] at g2 g5
          have a1 : AtMostOne (b.insts ++ [i]) .keyDerivation :=
            atMostOne_prefix (bs := is) (by simpa using g3)
          have a2 : AtMostOne (b.insts ++ [i]) .passDerivation :=
            atMostOne_prefix (bs := is) (by simpa using g4)
          refine ⟨_, ⟨g1 t (by simp), i, c, g2.1, ?_, g5.1, g6 c (by simp), rfl⟩, ?_⟩
          · rw [purposeTaken_false_iff]
            rintro (hk | hk) <;> intro j hj <;> rw [hk]
            · exact (atMostOne_append.mp a1).2 hk j hj
            · exact (atMostOne_append.mp a2).2 hk j hj
          · refine (foldRes_tools P cfg e all ts _ _ a1 a2).mpr ⟨is, cs, fun u hu => g1 u (by simp [hu]), g2.2,
              by simpa [buildAfter] using g3, by simpa [buildAfter] using g4, g5.2, fun d hd => g6 d (by simp [hd]), ?_⟩
            rw [g7]; simp [buildAfter, Bool.or_assoc]

/-- The (tool, signet) pairs visited by the signet loop, in order. -/
def toolSignets (e : Envelope) (is : List ToolInst) : List (ToolInst × Signet) :=
  is.flatMap (fun i => ((signetsFor e i).getD []).map (fun s => (i, s)))

theorem foldRes_signets (P : Prims) (cfg : Config) (e : Envelope) :
    ∀ (is : List ToolInst) (lv lv' : Levels) (n n' : Nat),
    (foldRes (stepSignets P cfg e) (lv, n) is = .ok (lv', n') ↔
      ∃ cs : List Int, (∀ i ∈ is, signetsFor e i ≠ some []) ∧
        (toolSignets e is).map (fun x => calcLevel P cfg (some x.1) (some x.2)) = cs.map Except.ok ∧
        (∀ c ∈ cs, LevelOK cfg e.securityLevel c) ∧ lv' = cs.foldl updLevels lv ∧
        n' = n + (toolSignets e is).length)
  | [], lv, lv', n, n' => by
    rw [foldRes_nil]
    constructor
    · intro h
      simp only [Except.ok.injEq, Prod.mk.injEq] at h
      exact ⟨[], by simp, by simp [toolSignets], by simp, by simp [h.1], by simp [toolSignets, h.2]⟩
    · rintro ⟨cs, -, h2, -, h4, h5⟩
      cases cs with
      | cons c cs => simp [toolSignets] at h2
      | nil => simp [toolSignets] at h5; simp [h4, h5]
  | i :: is, lv, lv', n, n' => by
    rw [foldRes_cons_ok_iff]
    cases hs : signetsFor e i with
    | none =>
      have e1 : toolSignets e (i :: is) = toolSignets e is := by simp [toolSignets, hs]
      simp only [stepSignets, hs, Except.ok.injEq, exists_eq_left']
      rw [foldRes_signets P cfg e is, e1]
      constructor
      · rintro ⟨cs, g1, g⟩
        refine ⟨cs, ?_, g⟩
        intro j hj
        rcases List.mem_cons.mp hj with rfl | hj
        · simp [hs]
        · exact g1 j hj
      · rintro ⟨cs, g1, g⟩
        exact ⟨cs, fun j hj => g1 j (by simp [hj]), g⟩
    | some l =>
      have e1 : toolSignets e (i :: is) = l.map (fun s => (i, s)) ++ toolSignets e is := by simp [toolSignets, hs]
      have key : ∀ lv1, foldRes (fun lv s => calcAndCheck P cfg e.securityLevel lv (some i) (some s)) lv l = .ok lv1 ↔
          ∃ cs : List Int, l.map (fun s => calcLevel P cfg (some i) (some s)) = cs.map Except.ok ∧
            (∀ c ∈ cs, LevelOK cfg e.securityLevel c) ∧ lv1 = cs.foldl updLevels lv :=
        fun lv1 => foldRes_levels P cfg e.securityLevel (fun s => (some i, some s)) l lv lv1
      rw [e1]
      simp only [stepSignets, hs]
      constructor
      · rintro ⟨⟨lv1, n1⟩, h1, h2⟩
        revert h1
        cases hf : foldRes (fun lv s => calcAndCheck P cfg e.securityLevel lv (some i) (some s)) lv l with
        | error x => simp
        | ok lv2 =>
          intro h1
          simp only at h1
          split at h1
          · cases h1
          · rename_i hne
            simp only [Except.ok.injEq, Prod.mk.injEq] at h1
            obtain ⟨cs1, a1, a2, a3⟩ := (key lv2).mp hf
            obtain ⟨cs2, b1, b2, b3, b4, b5⟩ := (foldRes_signets P cfg e is _ _ _ _).mp h2
            refine ⟨cs1 ++ cs2, ?_, ?_, ?_, ?_, ?_⟩
            · intro j hj
              rcases List.mem_cons.mp hj with rfl | hj
              · rw [hs]; intro hc; apply hne; simp only [Option.some.injEq] at hc; simp [hc]
              · exact b1 j hj
            · simp only [List.map_append, List.map_map]
              rw [b2, ← a1]; rfl
            · intro c hc
              rcases List.mem_append.mp hc with hc | hc
              · exact a2 c hc
              · exact b3 c hc
            · rw [List.foldl_append, ← a3, h1.1, b4]
            · rw [b5, ← h1.2]; simp; omega
      · rintro ⟨cs, g1, g2, g3, g4, g5⟩
        rw [List.map_append] at g2
        obtain ⟨cs1, cs2, rfl, c1, c2⟩ := List.append_eq_map_iff.mp g2
        have hne : l.length ≠ 0 := by
          intro h0
          have := List.length_eq_zero_iff.mp h0
          exact g1 i (by simp) (by rw [hs, this])
        have hk := (key (cs1.foldl updLevels lv)).mpr ⟨cs1, by rw [c1, List.map_map]; rfl,
          fun c hc => g3 c (by simp [hc]), rfl⟩
        refine ⟨(cs1.foldl updLevels lv, n + l.length), by rw [hk]; simp [hne], ?_⟩
        refine (foldRes_signets P cfg e is _ _ _ _).mpr ⟨cs2, fun j hj => g1 j (by simp [hj]), c2.symm,
          fun c hc => g3 c (by simp [hc]), by rw [g4, List.foldl_append], by rw [g5]; simp; omega⟩


/-- All levels calculated for a session: tools, then tool signets, then key secrets. -/
structure LevelLists (P : Prims) (cfg : Config) (e : Envelope) (is : List ToolInst) where
  tools : List Int
  signets : List Int
  keys : List Int
  htools : is.map (fun i => calcLevel P cfg (some i) none) = tools.map Except.ok
  hsignets : (toolSignets e is).map (fun x => calcLevel P cfg (some x.1) (some x.2)) = signets.map Except.ok
  hkeys : (keySecrets e).map (fun s => calcLevel P cfg none (some s)) = keys.map Except.ok

/-- All levels in the order they are processed. -/
def LevelLists.all {P : Prims} {cfg : Config} {e : Envelope} {is : List ToolInst} (l : LevelLists P cfg e is) : List Int :=
  l.tools ++ l.signets ++ l.keys

/-- The session levels from all calculated levels. -/
def levelsOf (cs : List Int) : Levels := cs.foldl updLevels {}

/-- The session that `newSession` builds from the tools and the calculated levels. -/
def mkSession (cfg : Config) (e : Envelope) (suite : Suite) (is : List ToolInst) (cs : List Int) : Session :=
  { env := e, suite := suite, insts := is,
    reqs := addKeyReqs e (is.foldl (fun r i => addPurpose r i.info.purpose) []),
    level := if cfg.minLevel > 0 ∧ cfg.minLevel > (levelsOf cs).level then cfg.minLevel else (levelsOf cs).level,
    maxLevel := (levelsOf cs).max,
    keySize :=
      let k := is.foldl (fun k i => if i.info.keySize > k then i.info.keySize else k) 0
      if cfg.minKeySize > 0 ∧ cfg.minKeySize > k then cfg.minKeySize else k }

theorem applyMinimums_ok_iff (cfg : Config) (b : Build) (lv : Levels) (r : Int × Nat) :
    applyMinimums cfg b lv = .ok r ↔
      r = (if cfg.minLevel > 0 ∧ cfg.minLevel > lv.level then cfg.minLevel else lv.level,
           if cfg.minKeySize > 0 ∧ cfg.minKeySize > b.keySize then cfg.minKeySize else b.keySize) ∧
      (b.requireLevel = true → r.1 ≠ 0) ∧ (b.requireKeySize = true → r.2 ≠ 0) := by
  unfold applyMinimums
  simp only
  generalize (if cfg.minLevel > 0 ∧ cfg.minLevel > lv.level then cfg.minLevel else lv.level) = L
  generalize (if cfg.minKeySize > 0 ∧ cfg.minKeySize > b.keySize then cfg.minKeySize else b.keySize) = K
  split
  · rename_i h
    simp only [reduceCtorEq, false_iff]
    rintro ⟨rfl, h1, _⟩
    exact h1 h.1 h.2
  · split
    · rename_i h
      simp only [reduceCtorEq, false_iff]
      rintro ⟨rfl, _, h2⟩
      exact h2 h.1 h.2
    · rename_i h1 h2
      simp only [Except.ok.injEq]
      constructor
      · rintro rfl
        exact ⟨rfl, fun a b => h1 ⟨a, b⟩, fun a b => h2 ⟨a, b⟩⟩
      · rintro ⟨rfl, _⟩; rfl

theorem checkEnvelopeLevels_ok_iff (cfg : Config) (e : Envelope) (suite : Suite) :
    checkEnvelopeLevels cfg e suite = .ok () ↔
      (e.securityLevel > 0 → demandedLevel cfg e.securityLevel ≤ e.securityLevel) ∧
      demandedLevel cfg e.securityLevel ≤ suite.securityLevel := by
  unfold checkEnvelopeLevels
  by_cases h : e.securityLevel > 0
  · simp only [h, if_true, bind_ok_iff, checkLevel_ok_iff]
    constructor
    · rintro ⟨u, hu, h2⟩; exact ⟨fun _ => (checkLevel_ok_iff _ _ _).mp hu, h2⟩
    · rintro ⟨h1, h2⟩; exact ⟨(), (checkLevel_ok_iff _ _ _).mpr (h1 trivial), h2⟩
  · simp only [h, if_false, ok_bind, checkLevel_ok_iff, false_implies, true_and]

/-- session.go:59-429: exactly when `newSession` succeeds, and with what. -/
theorem newSession_ok_iff (P : Prims) (cfg : Config) (e : Envelope) (s : Session) :
    newSession P cfg e = .ok s ↔
      ∃ (suite : Suite) (is : List ToolInst) (lv : LevelLists P cfg e is),
        e.suite = some suite ∧
        (e.securityLevel > 0 → demandedLevel cfg e.securityLevel ≤ e.securityLevel) ∧
        demandedLevel cfg e.securityLevel ≤ suite.securityLevel ∧
        (∀ t ∈ suite.tools, suite.tools.count t ≤ 1) ∧
        suite.tools.map makeInst = is.map Except.ok ∧
        AtMostOne is .keyDerivation ∧ AtMostOne is .passDerivation ∧
        (∀ c ∈ lv.all, LevelOK cfg e.securityLevel c) ∧
        (∀ i ∈ is, signetsFor e i ≠ some []) ∧
        s = mkSession cfg e suite is lv.all ∧
        ((∃ i ∈ is, i.info.needsSecurityLevel = true) → s.level ≠ 0) ∧
        ((∃ i ∈ is, i.info.needsDefaultKeySize = true) → s.keySize ≠ 0) ∧
        finalChecks cfg s ((toolSignets e is).length + (keySecrets e).length) (keySourceAvailable e is) = .ok () := by
  unfold newSession
  cases hsu : e.suite with
  | none => simp
  | some suite =>
    have amo : ∀ p, AtMostOne ({} : Build).insts p := by intro p; simp [AtMostOne]
    constructor
    · intro h
      simp only [bind_ok_iff] at h
      obtain ⟨u, h1, b, h2, ⟨lv1, seen⟩, h3, lv2, h4, ⟨level, ks⟩, h5, u2, h6, h7⟩ := h
      rw [checkEnvelopeLevels_ok_iff] at h1
      obtain ⟨is, ts, g1, g2, g3, g4, g5, g6, g7⟩ := (foldRes_tools P cfg e suite.tools suite.tools _ _ (amo _) (amo _)).mp h2
      subst g7
      obtain ⟨ss, k1, k2, k3, k4, k5⟩ := (foldRes_signets P cfg e _ _ _ _ _).mp h3
      obtain ⟨ks', l1, l2, l3⟩ := (foldRes_levels P cfg e.securityLevel (fun s => (none, some s)) (keySecrets e) _ _).mp h4
      rw [applyMinimums_ok_iff] at h5
      obtain ⟨m1, m2, m3⟩ := h5
      simp only [buildAfter, List.nil_append] at g3 g4 k1 k2 k4 k5 m1 m2 m3
      simp only [Except.ok.injEq] at h7
      let L : LevelLists P cfg e is := { tools := ts, signets := ss, keys := ks', htools := g5, hsignets := k2, hkeys := l1 }
      have hlv : lv2 = levelsOf L.all := by
        rw [l3, k4]; simp [L, LevelLists.all, levelsOf, List.foldl_append]
      have hs : s = mkSession cfg e suite is L.all := by
        rw [← h7]; simp only [Prod.mk.injEq] at m1
        simp [mkSession, ← hlv, buildAfter, m1.1, m1.2]
      refine ⟨suite, is, L, rfl, h1.1, h1.2, g1, g2, g3, g4, ?_, k1, hs, ?_, ?_, ?_⟩
      · intro c hc
        simp only [L, LevelLists.all, List.mem_append] at hc
        rcases hc with (hc | hc) | hc
        · exact g6 c hc
        · exact k3 c hc
        · exact l2 c hc
      · rintro ⟨i, hi, hn⟩
        have := m2 (by simp only [Bool.or_eq_true, List.any_eq_true]; exact Or.inr ⟨i, hi, hn⟩)
        rw [← h7]; exact this
      · rintro ⟨i, hi, hn⟩
        have := m3 (by simp only [Bool.or_eq_true, List.any_eq_true]; exact Or.inr ⟨i, hi, hn⟩)
        rw [← h7]; exact this
      · rw [← h7]
        rw [k5] at h6
        simpa [buildAfter] using h6
    · rintro ⟨suite', is, L, h0, h1, h1', g1, g2, g3, g4, hall, k1, hs, n1, n2, hf⟩
      simp only [Option.some.injEq] at h0
      subst h0
      have mem1 : ∀ c ∈ L.tools, LevelOK cfg e.securityLevel c := fun c hc => hall c (by simp [LevelLists.all, hc])
      have mem2 : ∀ c ∈ L.signets, LevelOK cfg e.securityLevel c := fun c hc => hall c (by simp [LevelLists.all, hc])
      have mem3 : ∀ c ∈ L.keys, LevelOK cfg e.securityLevel c := fun c hc => hall c (by simp [LevelLists.all, hc])
      simp only [bind_ok_iff]
      have hlv : L.keys.foldl updLevels (L.signets.foldl updLevels (L.tools.foldl updLevels {})) = levelsOf L.all := by
        simp [LevelLists.all, levelsOf, List.foldl_append]
      refine ⟨(), (checkEnvelopeLevels_ok_iff _ _ _).mpr ⟨h1, h1'⟩, _,
        (foldRes_tools P cfg e suite.tools suite.tools {} _ (amo _) (amo _)).mpr
          ⟨is, L.tools, g1, g2, by simpa using g3, by simpa using g4, L.htools, mem1, rfl⟩,
        (L.signets.foldl updLevels (L.tools.foldl updLevels {}), (toolSignets e is).length), ?_, levelsOf L.all, ?_, 
        (s.level, s.keySize), ?_, (), ?_, ?_⟩
      · exact (foldRes_signets P cfg e _ _ _ _ _).mpr ⟨L.signets, by simpa [buildAfter] using k1,
          by simpa [buildAfter] using L.hsignets, mem2, rfl, by simp [buildAfter]⟩
      · exact (foldRes_levels P cfg e.securityLevel (fun s => (none, some s)) (keySecrets e) _ _).mpr
          ⟨L.keys, L.hkeys, mem3, hlv.symm⟩
      · rw [applyMinimums_ok_iff]
        refine ⟨by rw [hs]; rfl, ?_, ?_⟩
        · intro hr
          apply n1
          simpa [buildAfter, List.any_eq_true] using hr
        · intro hr
          apply n2
          simpa [buildAfter, List.any_eq_true] using hr
      · rw [hs] at hf ⊢
        exact hf
      · rw [hs]; simp [mkSession, buildAfter]

/-- session.go:368-427: exactly when the final checks pass. -/
theorem finalChecks_ok_iff (cfg : Config) (s : Session) (seen : Nat) (ks : Bool) :
    finalChecks cfg s seen ks = .ok () ↔
      s.reqs ≠ [] ∧ (∀ a ∈ s.suite.provides, a ∈ s.reqs) ∧
      (RecipientAuthentication ∈ s.reqs → Confidentiality ∈ s.reqs) ∧
      (Confidentiality ∈ s.reqs → Integrity ∈ s.reqs) ∧
      (s.kdf = none → (s.queue .signing).length = s.suite.tools.length) ∧
      (s.kdf ≠ none → s.queue .integratedCipher ≠ [] ∨ s.queue .cipher ≠ [] ∨ s.queue .mac ≠ []) ∧
      (Integrity ∈ s.reqs ∨ Confidentiality ∈ s.reqs → ks = true) ∧
      s.env.secrets.length + s.env.senders.length + s.env.recipients.length ≤ seen ∧
      demandedLevel cfg s.env.securityLevel ≤ s.level := by
  unfold finalChecks
  by_cases h1 : s.reqs.isEmpty = true
  · have : s.reqs = [] := by simpa using h1
    simp [this]
  · simp only [h1]
    simp only [Bool.false_eq_true, if_false, bind_ok_iff]
    have h1' : s.reqs ≠ [] := by simpa using h1
    constructor
    · rintro ⟨u, hc, h⟩
      have hc' := (compliance_iff s.reqs s.suite.provides).mp hc
      split at h
      · cases h
      · rename_i c1
        split at h
        · cases h
        · rename_i c2
          split at h
          · cases h
          · rename_i c3
            split at h
            · cases h
            · rename_i c4
              split at h
              · cases h
              · rename_i c5
                split at h
                · cases h
                · rename_i c6
                  simp only [Bool.and_eq_true, Bool.not_eq_true', Bool.or_eq_true, has_iff s.reqs, not_and,
                    Bool.not_eq_false, Bool.not_eq_true] at c1 c2 c5
                  refine ⟨h1', hc', c1, c2, ?_, ?_, ?_, by omega, (checkLevel_ok_iff _ _ _).mp h⟩
                  · intro hk; rw [hk] at c3; simpa using c3
                  · intro hk
                    have : s.kdf.isSome = true := by cases hx : s.kdf with | none => exact absurd hx hk | some _ => rfl
                    rw [this] at c4
                    simp only [Bool.and_true, Bool.and_eq_true, List.isEmpty_iff, not_and] at c4
                    by_cases a : s.queue .integratedCipher = []
                    · by_cases b : s.queue .cipher = []
                      · exact Or.inr (Or.inr (c4 ⟨a, b⟩))
                      · exact Or.inr (Or.inl b)
                    · exact Or.inl a
                  · intro hi
                    cases ks with
                    | true => rfl
                    | false => exact absurd hi (c5 rfl)
    · rintro ⟨_, hc, c1, c2, c3, c4, c5, c6, c7⟩
      refine ⟨(), (compliance_iff s.reqs s.suite.provides).mpr hc, ?_⟩
      rw [if_neg, if_neg, if_neg, if_neg, if_neg, if_neg]
      · exact (checkLevel_ok_iff _ _ _).mpr c7
      · omega
      · cases ks with
        | true => simp
        | false =>
          simp only [Bool.not_false, Bool.true_and, Bool.or_eq_true, has_iff s.reqs]
          intro hi; exact absurd (c5 hi) (by simp)
      · cases hk : s.kdf with
        | none => simp
        | some k =>
          have := c4 (by simp [hk])
          simp only [Option.isSome_some, Bool.and_true, Bool.and_eq_true, List.isEmpty_iff]
          rintro ⟨⟨a, b⟩, c⟩
          rcases this with h | h | h
          · exact h a
          · exact h b
          · exact h c
      · cases hk : s.kdf with
        | some k => simp
        | none => simp [c3 hk]
      · simp only [Bool.and_eq_true, Bool.not_eq_true', has_iff s.reqs]
        rintro ⟨a, b⟩
        have := (has_iff s.reqs _).mpr (c2 a)
        rw [b] at this; cases this
      · simp only [Bool.and_eq_true, Bool.not_eq_true', has_iff s.reqs]
        rintro ⟨a, b⟩
        have := (has_iff s.reqs _).mpr (c1 a)
        rw [b] at this; cases this

end Jess
