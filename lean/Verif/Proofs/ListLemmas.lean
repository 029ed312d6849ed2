import Verif.Model.Lists
import Verif.Proofs.ExceptLemmas
import Verif.Proofs.TypeLemmas

/-! Lemmas about `mapE`, `filterE`, `flatMapE`, `forE`. -/

namespace Ocelot

variable {α β γ : Type}

@[simp] theorem mapE_nil (f : α → Except Err β) : mapE f [] = .ok [] := rfl

theorem mapE_cons_ok {f : α → Except Err β} {a : α} {l : List α} {r : List β} :
    mapE f (a :: l) = .ok r ↔ ∃ b r', f a = .ok b ∧ mapE f l = .ok r' ∧ r = b :: r' := by
  simp only [mapE, bind_eq_ok, epure, Except.ok.injEq]
  constructor
  · rintro ⟨b, hb, r', hr', rfl⟩; exact ⟨b, r', hb, hr', rfl⟩
  · rintro ⟨b, r', hb, hr', rfl⟩; exact ⟨b, hb, r', hr', rfl⟩

theorem mapE_ok_iff {f : α → Except Err β} {l : List α} {r : List β} :
    mapE f l = .ok r ↔ List.Forall₂ (fun a b => f a = .ok b) l r := by
  induction l generalizing r with
  | nil => simp [mapE, eq_comm]
  | cons a l ih =>
    rw [mapE_cons_ok]
    constructor
    · rintro ⟨b, r', hb, hr', rfl⟩; exact .cons hb (ih.mp hr')
    · intro h
      cases h with
      | cons hb hr => exact ⟨_, _, hb, ih.mpr hr, rfl⟩

theorem mapE_forall₂_mem {f : α → Except Err β} {l : List α} {r : List β} (h : mapE f l = .ok r) :
    List.Forall₂ (fun a b => a ∈ l ∧ f a = .ok b) l r := by
  induction l generalizing r with
  | nil => cases h; exact .nil
  | cons a l ih =>
    obtain ⟨b, r', hb, hr', rfl⟩ := mapE_cons_ok.mp h
    exact .cons ⟨by simp, hb⟩ ((ih hr').imp fun x y hxy => ⟨by simp [hxy.1], hxy.2⟩)

theorem mapE_length {f : α → Except Err β} {l : List α} {r : List β} (h : mapE f l = .ok r) :
    r.length = l.length := (mapE_ok_iff.mp h).length_eq.symm

theorem mapE_ok_of_forall {f : α → Except Err β} {l : List α} (h : ∀ a ∈ l, ∃ b, f a = .ok b) :
    ∃ r, mapE f l = .ok r := by
  induction l with
  | nil => exact ⟨[], rfl⟩
  | cons a l ih =>
    obtain ⟨b, hb⟩ := h a (by simp)
    obtain ⟨r, hr⟩ := ih fun x hx => h x (by simp [hx])
    exact ⟨b :: r, mapE_cons_ok.mpr ⟨b, r, hb, hr, rfl⟩⟩

theorem mapE_pure (f : α → β) (l : List α) : mapE (fun a => .ok (f a)) l = .ok (l.map f) := by
  induction l with
  | nil => rfl
  | cons a l ih => simp [mapE, ih]

theorem mapE_congr {f g : α → Except Err β} {l : List α} (h : ∀ a ∈ l, f a = g a) :
    mapE f l = mapE g l := by
  induction l with
  | nil => rfl
  | cons a l ih =>
    simp only [mapE]
    rw [h a (by simp), ih fun x hx => h x (by simp [hx])]

theorem mapE_error {f : α → Except Err β} {l : List α} {e : Err} (h : mapE f l = .error e) :
    ∃ a ∈ l, f a = .error e := by
  induction l with
  | nil => cases h
  | cons a l ih =>
    simp only [mapE, bind_eq_error] at h
    rcases h with h | ⟨b, hb, h | ⟨r, hr, h⟩⟩
    · exact ⟨a, by simp, h⟩
    · obtain ⟨x, hx, hx'⟩ := ih h; exact ⟨x, by simp [hx], hx'⟩
    · cases h

theorem mapE_mem {f : α → Except Err β} {l : List α} {r : List β} (h : mapE f l = .ok r) {b : β}
    (hb : b ∈ r) : ∃ a ∈ l, f a = .ok b := by
  induction l generalizing r with
  | nil => cases h; cases hb
  | cons a l ih =>
    obtain ⟨b', r', h1, h2, rfl⟩ := mapE_cons_ok.mp h
    rcases List.mem_cons.mp hb with rfl | hb
    · exact ⟨a, by simp, h1⟩
    · obtain ⟨x, hx, hx'⟩ := ih h2 hb; exact ⟨x, by simp [hx], hx'⟩

theorem mapE_append {f : α → Except Err β} {l₁ l₂ : List α} {r : List β} :
    mapE f (l₁ ++ l₂) = .ok r ↔ ∃ r₁ r₂, mapE f l₁ = .ok r₁ ∧ mapE f l₂ = .ok r₂ ∧ r = r₁ ++ r₂ := by
  induction l₁ generalizing r with
  | nil => simp
  | cons a l ih =>
    rw [List.cons_append, mapE_cons_ok]
    constructor
    · rintro ⟨b, r', hb, hr', rfl⟩
      obtain ⟨r₁, r₂, h1, h2, rfl⟩ := ih.mp hr'
      exact ⟨b :: r₁, r₂, mapE_cons_ok.mpr ⟨b, r₁, hb, h1, rfl⟩, h2, rfl⟩
    · rintro ⟨r₁, r₂, h1, h2, rfl⟩
      obtain ⟨b, r', hb, hr', rfl⟩ := mapE_cons_ok.mp h1
      exact ⟨b, r' ++ r₂, hb, ih.mpr ⟨r', r₂, hr', h2, rfl⟩, rfl⟩

/-- If `f` computes `g` of something on both sides, `mapE` transports maps. -/
theorem mapE_map_eq {f : α → Except Err β} {l : List α} {r : List β} (h : mapE f l = .ok r)
    {p : α → γ} {q : β → γ} (hpq : ∀ a ∈ l, ∀ b, f a = .ok b → p a = q b) : r.map q = l.map p := by
  induction l generalizing r with
  | nil => cases h; rfl
  | cons a l ih =>
    obtain ⟨b, r', h1, h2, rfl⟩ := mapE_cons_ok.mp h
    simp only [List.map_cons]
    rw [hpq a (by simp) b h1, ih h2 fun x hx => hpq x (by simp [hx])]

theorem mapE_filter {f : α → Except Err β} {l : List α} {r : List β} (h : mapE f l = .ok r)
    {p : α → Bool} {q : β → Bool} (hpq : ∀ a ∈ l, ∀ b, f a = .ok b → p a = q b) :
    mapE f (l.filter p) = .ok (r.filter q) := by
  induction l generalizing r with
  | nil => cases h; rfl
  | cons a l ih =>
    obtain ⟨b, r', h1, h2, rfl⟩ := mapE_cons_ok.mp h
    have hp := hpq a (by simp) b h1
    have hi := ih h2 fun x hx => hpq x (by simp [hx])
    by_cases hb : q b = true
    · rw [List.filter_cons_of_pos (by rw [hp, hb]), List.filter_cons_of_pos hb]
      exact mapE_cons_ok.mpr ⟨b, _, h1, hi, rfl⟩
    · rw [List.filter_cons_of_neg (by rw [hp]; exact hb), List.filter_cons_of_neg hb]
      exact hi

theorem filterE_cons_ok {p : α → Except Err Bool} {a : α} {l r : List α} :
    filterE p (a :: l) = .ok r ↔
      ∃ b r', p a = .ok b ∧ filterE p l = .ok r' ∧ r = if b then a :: r' else r' := by
  simp only [filterE, bind_eq_ok, epure, Except.ok.injEq]
  constructor
  · rintro ⟨b, hb, r', hr', rfl⟩; exact ⟨b, r', hb, hr', rfl⟩
  · rintro ⟨b, r', hb, hr', rfl⟩; exact ⟨b, hb, r', hr', rfl⟩

theorem filterE_ok_all {p : α → Except Err Bool} {l r : List α} (h : filterE p l = .ok r) :
    ∀ a ∈ l, ∃ b, p a = .ok b := by
  induction l generalizing r with
  | nil => simp
  | cons a l ih =>
    obtain ⟨b, r', h1, h2, rfl⟩ := filterE_cons_ok.mp h
    intro x hx
    rcases List.mem_cons.mp hx with rfl | hx
    · exact ⟨b, h1⟩
    · exact ih h2 x hx

theorem filterE_eq_filter {p : α → Except Err Bool} {q : α → Bool} {l : List α}
    (h : ∀ a ∈ l, p a = .ok (q a)) : filterE p l = .ok (l.filter q) := by
  induction l with
  | nil => rfl
  | cons a l ih =>
    refine filterE_cons_ok.mpr ⟨q a, _, h a (by simp), ih fun x hx => h x (by simp [hx]), ?_⟩
    rw [List.filter_cons]

theorem filterE_error {p : α → Except Err Bool} {l : List α} {e : Err}
    (h : filterE p l = .error e) : ∃ a ∈ l, p a = .error e := by
  induction l with
  | nil => cases h
  | cons a l ih =>
    simp only [filterE, bind_eq_error] at h
    rcases h with h | ⟨b, hb, h | ⟨r, hr, h⟩⟩
    · exact ⟨a, by simp, h⟩
    · obtain ⟨x, hx, hx'⟩ := ih h; exact ⟨x, by simp [hx], hx'⟩
    · cases h

theorem flatMapE_cons_ok {f : α → Except Err (List β)} {a : α} {l : List α} {r : List β} :
    flatMapE f (a :: l) = .ok r ↔
      ∃ b r', f a = .ok b ∧ flatMapE f l = .ok r' ∧ r = b ++ r' := by
  simp only [flatMapE, bind_eq_ok, epure, Except.ok.injEq]
  constructor
  · rintro ⟨b, hb, r', hr', rfl⟩; exact ⟨b, r', hb, hr', rfl⟩
  · rintro ⟨b, r', hb, hr', rfl⟩; exact ⟨b, hb, r', hr', rfl⟩

theorem flatMapE_ok_iff {f : α → Except Err (List β)} {l : List α} {r : List β} :
    flatMapE f l = .ok r ↔ ∃ bs, mapE f l = .ok bs ∧ r = bs.flatten := by
  induction l generalizing r with
  | nil => simp [flatMapE, eq_comm]
  | cons a l ih =>
    rw [flatMapE_cons_ok]
    constructor
    · rintro ⟨b, r', hb, hr', rfl⟩
      obtain ⟨bs, h1, rfl⟩ := ih.mp hr'
      exact ⟨b :: bs, mapE_cons_ok.mpr ⟨b, bs, hb, h1, rfl⟩, by simp⟩
    · rintro ⟨bs, h, rfl⟩
      obtain ⟨b, r', hb, hr', rfl⟩ := mapE_cons_ok.mp h
      exact ⟨b, r'.flatten, hb, ih.mpr ⟨r', hr', rfl⟩, by simp⟩

theorem flatMapE_mem {f : α → Except Err (List β)} {l : List α} {r : List β}
    (h : flatMapE f l = .ok r) {b : β} (hb : b ∈ r) : ∃ a ∈ l, ∃ bs, f a = .ok bs ∧ b ∈ bs := by
  obtain ⟨bs, h1, rfl⟩ := flatMapE_ok_iff.mp h
  obtain ⟨x, hx, hb⟩ := List.mem_flatten.mp hb
  obtain ⟨a, ha, h2⟩ := mapE_mem h1 hx
  exact ⟨a, ha, x, h2, hb⟩

theorem flatMapE_pure (f : α → List β) (l : List α) :
    flatMapE (fun a => .ok (f a)) l = .ok (l.flatMap f) := by
  induction l with
  | nil => rfl
  | cons a l ih => simp [flatMapE, ih]

theorem forE_ok_iff {f : α → Except Err Unit} {l : List α} :
    forE f l = .ok () ↔ ∀ a ∈ l, f a = .ok () := by
  induction l with
  | nil => simp [forE]
  | cons a l ih =>
    simp only [forE, bind_eq_ok, ih]
    constructor
    · rintro ⟨_, h, h'⟩ x hx
      rcases List.mem_cons.mp hx with rfl | hx
      · exact h
      · exact h' x hx
    · intro h; exact ⟨(), h a (by simp), fun x hx => h x (by simp [hx])⟩

theorem forE_error {f : α → Except Err Unit} {l : List α} {e : Err} (h : forE f l = .error e) :
    ∃ a ∈ l, f a = .error e := by
  induction l with
  | nil => cases h
  | cons a l ih =>
    simp only [forE, bind_eq_error] at h
    rcases h with h | ⟨_, _, h⟩
    · exact ⟨a, by simp, h⟩
    · obtain ⟨x, hx, hx'⟩ := ih h; exact ⟨x, by simp [hx], hx'⟩

theorem forall₂_trans' {R : α → β → Prop} {S : β → γ → Prop} {T : α → γ → Prop} {l : List α}
    {m : List β} {r : List γ} (h : List.Forall₂ R l m) (h' : List.Forall₂ S m r)
    (ht : ∀ a b c, R a b → S b c → T a c) : List.Forall₂ T l r := by
  induction h generalizing r with
  | nil => cases h'; exact .nil
  | cons hab _ ih =>
    cases h' with
    | cons hbc htl => exact .cons (ht _ _ _ hab hbc) (ih htl)

theorem forall₂_mem_right {R : α → β → Prop} {l : List α} {r : List β} (h : List.Forall₂ R l r)
    {b : β} (hb : b ∈ r) : ∃ a ∈ l, R a b := by
  induction h with
  | nil => cases hb
  | cons hab _ ih =>
    rcases List.mem_cons.mp hb with rfl | hb
    · exact ⟨_, by simp, hab⟩
    · obtain ⟨a, ha, h⟩ := ih hb; exact ⟨a, by simp [ha], h⟩

theorem forall₂_mem_left {R : α → β → Prop} {l : List α} {r : List β} (h : List.Forall₂ R l r)
    {a : α} (ha : a ∈ l) : ∃ b ∈ r, R a b := by
  induction h with
  | nil => cases ha
  | cons hab _ ih =>
    rcases List.mem_cons.mp ha with rfl | ha
    · exact ⟨_, by simp, hab⟩
    · obtain ⟨b, hb, h⟩ := ih ha; exact ⟨b, by simp [hb], h⟩

theorem forall₂_map_eq' {R : α → β → Prop} {l : List α} {r : List β} (h : List.Forall₂ R l r)
    {p : α → γ} {q : β → γ} (hpq : ∀ a b, R a b → p a = q b) : l.map p = r.map q := by
  induction h with
  | nil => rfl
  | cons hab _ ih => simp only [List.map_cons]; rw [hpq _ _ hab, ih]

theorem forall₂_append_inv {R : α → β → Prop} {l₁ l₂ : List α} {r : List β}
    (h : List.Forall₂ R (l₁ ++ l₂) r) :
    ∃ r₁ r₂, List.Forall₂ R l₁ r₁ ∧ List.Forall₂ R l₂ r₂ ∧ r = r₁ ++ r₂ := by
  induction l₁ generalizing r with
  | nil => exact ⟨[], r, .nil, h, rfl⟩
  | cons a l ih =>
    cases h with
    | cons hab ht =>
      obtain ⟨r₁, r₂, h1, h2, rfl⟩ := ih ht
      exact ⟨_ :: r₁, r₂, .cons hab h1, h2, rfl⟩

theorem forall₂_with_mem {R : α → β → Prop} {l : List α} {r : List β} (h : List.Forall₂ R l r) :
    List.Forall₂ (fun a b => a ∈ l ∧ R a b) l r := by
  induction h with
  | nil => exact .nil
  | cons hab _ ih => exact .cons ⟨by simp, hab⟩ (ih.imp fun x y hxy => ⟨by simp [hxy.1], hxy.2⟩)

end Ocelot
