/-! Small list lemmas. -/

namespace Jess

/-- Two lists of the same length, related element by element. -/
inductive All2 {α β : Type} (R : α → β → Prop) : List α → List β → Prop
  | nil : All2 R [] []
  | cons {a : α} {b : β} {as : List α} {bs : List β} : R a b → All2 R as bs → All2 R (a :: as) (b :: bs)

namespace All2

variable {α β γ : Type} {R S : α → β → Prop}

theorem length {as : List α} {bs : List β} (h : All2 R as bs) : as.length = bs.length := by
  induction h with
  | nil => rfl
  | cons _ _ ih => simp [ih]

theorem mono {as : List α} {bs : List β} (h : All2 R as bs) (f : ∀ a b, R a b → S a b) : All2 S as bs := by
  induction h with
  | nil => exact .nil
  | cons hr _ ih => exact .cons (f _ _ hr) ih

theorem mono_mem {as : List α} {bs : List β} (h : All2 R as bs) (f : ∀ a ∈ as, ∀ b ∈ bs, R a b → S a b) : All2 S as bs := by
  induction h with
  | nil => exact .nil
  | cons hr _ ih =>
    exact .cons (f _ (by simp) _ (by simp) hr) (ih fun a ha b hb => f a (by simp [ha]) b (by simp [hb]))

theorem getElem? {as : List α} {bs : List β} (h : All2 R as bs) (i : Nat) {b : β} (hb : bs[i]? = some b) :
    ∃ a, as[i]? = some a ∧ R a b := by
  induction h generalizing i with
  | nil => simp at hb
  | cons hr _ ih =>
    cases i with
    | zero => simp at hb; exact ⟨_, by simp, hb ▸ hr⟩
    | succ i => simpa using ih i (by simpa using hb)

theorem getElem?_left {as : List α} {bs : List β} (h : All2 R as bs) (i : Nat) {a : α} (ha : as[i]? = some a) :
    ∃ b, bs[i]? = some b ∧ R a b := by
  induction h generalizing i with
  | nil => simp at ha
  | cons hr _ ih =>
    cases i with
    | zero => simp at ha; exact ⟨_, by simp, ha ▸ hr⟩
    | succ i => simpa using ih i (by simpa using ha)

theorem mem_left {as : List α} {bs : List β} (h : All2 R as bs) {a : α} (ha : a ∈ as) : ∃ b ∈ bs, R a b := by
  induction h with
  | nil => simp at ha
  | cons hr _ ih =>
    rcases List.mem_cons.mp ha with rfl | ha
    · exact ⟨_, by simp, hr⟩
    · obtain ⟨b, hb, h⟩ := ih ha; exact ⟨b, by simp [hb], h⟩

theorem mem_right {as : List α} {bs : List β} (h : All2 R as bs) {b : β} (hb : b ∈ bs) : ∃ a ∈ as, R a b := by
  induction h with
  | nil => simp at hb
  | cons hr _ ih =>
    rcases List.mem_cons.mp hb with rfl | hb
    · exact ⟨_, by simp, hr⟩
    · obtain ⟨a, ha, h⟩ := ih hb; exact ⟨a, by simp [ha], h⟩

theorem append {as as' : List α} {bs bs' : List β} (h : All2 R as bs) (h' : All2 R as' bs') : All2 R (as ++ as') (bs ++ bs') := by
  induction h with
  | nil => simpa using h'
  | cons hr _ ih => exact .cons hr ih

theorem append_left {as as' : List α} {cs : List β} (h : All2 R (as ++ as') cs) :
    ∃ bs bs', cs = bs ++ bs' ∧ All2 R as bs ∧ All2 R as' bs' := by
  induction as generalizing cs with
  | nil => exact ⟨[], cs, rfl, .nil, by simpa using h⟩
  | cons a as ih =>
    cases h with
    | cons hr ht =>
      obtain ⟨bs, bs', rfl, h1, h2⟩ := ih ht
      exact ⟨_ :: bs, bs', rfl, .cons hr h1, h2⟩

theorem map_left {f : γ → α} {cs : List γ} {bs : List β} : All2 R (cs.map f) bs ↔ All2 (fun c b => R (f c) b) cs bs := by
  constructor
  · intro h
    induction cs generalizing bs with
    | nil => cases h; exact .nil
    | cons c cs ih => cases h with | cons hr ht => exact .cons hr (ih ht)
  · intro h
    induction h with
    | nil => exact .nil
    | cons hr _ ih => exact .cons hr ih

theorem map_right {f : γ → β} {as : List α} {cs : List γ} : All2 R as (cs.map f) ↔ All2 (fun a c => R a (f c)) as cs := by
  constructor
  · intro h
    induction cs generalizing as with
    | nil => cases h; exact .nil
    | cons c cs ih => cases h with | cons hr ht => exact .cons hr (ih ht)
  · intro h
    induction h with
    | nil => exact .nil
    | cons hr _ ih => exact .cons hr ih

theorem filter {as : List α} {bs : List β} (h : All2 R as bs) {p : α → Bool} {q : β → Bool}
    (hpq : ∀ a b, R a b → p a = q b) : All2 R (as.filter p) (bs.filter q) := by
  induction h with
  | nil => exact .nil
  | cons hr _ ih =>
    rename_i a b as bs _
    have := hpq _ _ hr
    simp only [List.filter_cons, this]
    split
    · exact .cons hr ih
    · exact ih

/-- The same function on both sides. -/
theorem map_eq {f : α → γ} {g : β → γ} {as : List α} {bs : List β} (h : All2 (fun a b => f a = g b) as bs) :
    as.map f = bs.map g := by
  induction h with
  | nil => rfl
  | cons hr _ ih => simp [hr, ih]

theorem of_map_eq {f : α → γ} {g : β → γ} {as : List α} {bs : List β} (h : as.map f = bs.map g) :
    All2 (fun a b => f a = g b) as bs := by
  induction as generalizing bs with
  | nil => cases bs with | nil => exact .nil | cons _ _ => simp at h
  | cons a as ih =>
    cases bs with
    | nil => simp at h
    | cons b bs => simp at h; exact .cons h.1 (ih h.2)

theorem and {as : List α} {bs : List β} (h : All2 R as bs) (h' : All2 S as bs) : All2 (fun a b => R a b ∧ S a b) as bs := by
  induction h with
  | nil => exact .nil
  | cons hr _ ih => cases h' with | cons hs hs' => exact .cons ⟨hr, hs⟩ (ih hs')

theorem refl_of {R : α → α → Prop} {as : List α} (h : ∀ a ∈ as, R a a) : All2 R as as := by
  induction as with
  | nil => exact .nil
  | cons a as ih => exact .cons (h a (by simp)) (ih fun b hb => h b (by simp [hb]))

end All2
end Jess
