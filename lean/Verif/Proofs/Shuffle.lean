import Verif.Props.Inventory

/-! Two runs that differ in the iteration order of sets: the data before linking are the same, afterwards suppliers and the inputs
made of them may be in another order. -/

namespace Ocelot
open Spec

/-! ## Lists -/

theorem mapE_rel {α β α' β' : Type} {f : α → Except Err β} {f' : α' → Except Err β'} {Q : α → α' → Prop} {R : β → β' → Prop}
    {l : List α} {l' : List α'} {r : List β} (hl : List.Forall₂ Q l l') (h : mapE f l = .ok r)
    (hf : ∀ a a', a ∈ l → a' ∈ l' → Q a a' → ∀ b, f a = .ok b → ∃ b', f' a' = .ok b' ∧ R b b') : ∃ r', mapE f' l' = .ok r' ∧ List.Forall₂ R r r' := by
  induction hl generalizing r with
  | nil => cases h; exact ⟨[], rfl, .nil⟩
  | @cons a a' l l' hq hl ih =>
    obtain ⟨b, r1, h1, h2, rfl⟩ := mapE_cons_ok.mp h
    obtain ⟨b', h1', hb⟩ := hf a a' (by simp) (by simp) hq b h1
    obtain ⟨r1', h2', hr⟩ := ih h2 fun x x' hx hx' => hf x x' (by simp [hx]) (by simp [hx'])
    exact ⟨b' :: r1', mapE_cons_ok.mpr ⟨b', r1', h1', h2', rfl⟩, .cons hb hr⟩

theorem filterE_rel {α α' : Type} {f : α → Except Err Bool} {f' : α' → Except Err Bool} {Q : α → α' → Prop}
    {l : List α} {l' : List α'} {r : List α} (hl : List.Forall₂ Q l l') (h : filterE f l = .ok r)
    (hf : ∀ a a', Q a a' → ∀ b, f a = .ok b → f' a' = .ok b) : ∃ r', filterE f' l' = .ok r' ∧ List.Forall₂ Q r r' := by
  induction hl generalizing r with
  | nil => cases h; exact ⟨[], rfl, .nil⟩
  | @cons a a' l l' hq hl ih =>
    obtain ⟨b, r1, h1, h2, rfl⟩ := filterE_cons_ok.mp h
    obtain ⟨r1', h2', hr⟩ := ih h2
    refine ⟨_, filterE_cons_ok.mpr ⟨b, r1', hf a a' hq b h1, h2', rfl⟩, ?_⟩
    cases b
    · exact hr
    · exact .cons hq hr

theorem foldE_rel {α σ σ' : Type} {f : σ → α → Except Err σ} {f' : σ' → α → Except Err σ'} {R : σ → σ' → Prop}
    {l : List α} {s t : σ} {s' : σ'} (hs : R s s') (h : foldE f s l = .ok t)
    (hf : ∀ s s' a, a ∈ l → R s s' → ∀ t, f s a = .ok t → ∃ t', f' s' a = .ok t' ∧ R t t') : ∃ t', foldE f' s' l = .ok t' ∧ R t t' := by
  induction l generalizing s s' with
  | nil => cases h; exact ⟨s', rfl, hs⟩
  | cons a l ih =>
    simp only [foldE] at h
    obtain ⟨u, h1, h2⟩ := bind_eq_ok.mp h
    obtain ⟨u', h1', hu⟩ := hf s s' a (by simp) hs u h1
    obtain ⟨t', h2', ht⟩ := ih hu h2 fun s s' b hb => hf s s' b (by simp [hb])
    exact ⟨t', by simp only [foldE]; exact bind_eq_ok.mpr ⟨u', h1', h2'⟩, ht⟩

theorem scanE_rel {α α' β β' σ σ' : Type} {f : σ → α → Except Err (σ × β)} {f' : σ' → α' → Except Err (σ' × β')} {S : σ → σ' → Prop}
    {Q : α → α' → Prop} {R : β → β' → Prop} {l : List α} {l' : List α'} {s : σ} {s' : σ'} {r : List β} (hl : List.Forall₂ Q l l')
    (hs : S s s') (h : scanE f s l = .ok r)
    (hf : ∀ s s' a a', S s s' → Q a a' → ∀ p, f s a = .ok p → ∃ p', f' s' a' = .ok p' ∧ S p.1 p'.1 ∧ R p.2 p'.2) :
    ∃ r', scanE f' s' l' = .ok r' ∧ List.Forall₂ R r r' := by
  induction hl generalizing s s' r with
  | nil => cases h; exact ⟨[], rfl, .nil⟩
  | @cons a a' l l' hq hl ih =>
    simp only [scanE] at h
    obtain ⟨p, h1, h0⟩ := bind_eq_ok.mp h
    obtain ⟨r1, h2, h3⟩ := bind_eq_ok.mp h0
    cases h3
    obtain ⟨p', h1', hp, hb⟩ := hf s s' a a' hs hq p h1
    obtain ⟨r1', h2', hr⟩ := ih hp h2
    exact ⟨p'.2 :: r1', by simp only [scanE]; rw [h1', ebind_ok, h2', ebind_ok]; rfl, .cons hb hr⟩

theorem mapE_perm {α β : Type} {f : α → Except Err β} {l l' : List α} {r : List β} (hp : l.Perm l') (h : mapE f l = .ok r) :
    ∃ r', mapE f l' = .ok r' ∧ r.Perm r' := by
  induction hp generalizing r with
  | nil => cases h; exact ⟨[], rfl, .nil⟩
  | cons a hp ih =>
    obtain ⟨b, r1, h1, h2, rfl⟩ := mapE_cons_ok.mp h
    obtain ⟨r1', h2', hr⟩ := ih h2
    exact ⟨b :: r1', mapE_cons_ok.mpr ⟨b, r1', h1, h2', rfl⟩, hr.cons b⟩
  | swap a b l =>
    obtain ⟨x, r1, h1, h0, rfl⟩ := mapE_cons_ok.mp h
    obtain ⟨y, r2, h2, h3, rfl⟩ := mapE_cons_ok.mp h0
    exact ⟨y :: x :: r2, mapE_cons_ok.mpr ⟨y, _, h2, mapE_cons_ok.mpr ⟨x, r2, h1, h3, rfl⟩, rfl⟩, .swap y x r2⟩
  | trans _ _ ih1 ih2 =>
    obtain ⟨r1, h1, p1⟩ := ih1 h
    obtain ⟨r2, h2, p2⟩ := ih2 h1
    exact ⟨r2, h2, p1.trans p2⟩

theorem flatMapE_perm {α β : Type} {f : α → Except Err (List β)} {l l' : List α} {r : List β} (hp : l.Perm l') (h : flatMapE f l = .ok r) :
    ∃ r', flatMapE f l' = .ok r' ∧ r.Perm r' := by
  obtain ⟨bs, h1, rfl⟩ := flatMapE_ok_iff.mp h
  obtain ⟨bs', h1', hb⟩ := mapE_perm hp h1
  exact ⟨bs'.flatten, flatMapE_ok_iff.mpr ⟨bs', h1', rfl⟩, hb.flatten⟩

theorem filterE_perm {α : Type} {f : α → Except Err Bool} {l l' : List α} {r : List α} (hp : l.Perm l') (h : filterE f l = .ok r) :
    ∃ r', filterE f l' = .ok r' ∧ r.Perm r' := by
  have hall := filterE_ok_all h
  have hq : ∀ a ∈ l, f a = .ok (match f a with | .ok b => b | .error _ => false) := by
    intro a ha
    obtain ⟨b, hb⟩ := hall a ha
    rw [hb]
  rw [filterE_eq_filter hq] at h
  cases h
  exact ⟨_, filterE_eq_filter fun a ha => hq a (hp.mem_iff.mpr ha), hp.filter _⟩

theorem flatMapE_rel_perm {α α' β : Type} {f : α → Except Err (List β)} {f' : α' → Except Err (List β)} {Q : α → α' → Prop}
    {l : List α} {l' : List α'} {r : List β} (hl : List.Forall₂ Q l l') (h : flatMapE f l = .ok r)
    (hf : ∀ a a', Q a a' → ∀ b, f a = .ok b → ∃ b', f' a' = .ok b' ∧ b.Perm b') : ∃ r', flatMapE f' l' = .ok r' ∧ r.Perm r' := by
  obtain ⟨bs, h1, rfl⟩ := flatMapE_ok_iff.mp h
  obtain ⟨bs', h1', hb⟩ := mapE_rel hl h1 fun a a' _ _ => hf a a'
  refine ⟨bs'.flatten, flatMapE_ok_iff.mpr ⟨bs', h1', rfl⟩, ?_⟩
  clear h1 h1' h
  induction hb with
  | nil => exact .refl _
  | cons h _ ih => exact h.append ih

theorem forall₂_append' {α β : Type} {R : α → β → Prop} {a b : List α} {c d : List β} (h : List.Forall₂ R a c) (h' : List.Forall₂ R b d) :
    List.Forall₂ R (a ++ b) (c ++ d) := by
  induction h with
  | nil => exact h'
  | cons hx _ ih => exact .cons hx ih

theorem groupInsert_rel {κ α β : Type} [DecidableEq κ] {R : α → β → Prop} (k : κ) {a : α} {b : β} (hab : R a b)
    {d : List (κ × List α)} {d' : List (κ × List β)} (h : List.Forall₂ (fun g g' => g.1 = g'.1 ∧ List.Forall₂ R g.2 g'.2) d d') :
    List.Forall₂ (fun g g' => g.1 = g'.1 ∧ List.Forall₂ R g.2 g'.2) (groupInsert k a d) (groupInsert k b d') := by
  induction h with
  | nil => exact .cons ⟨rfl, .cons hab .nil⟩ .nil
  | @cons g g' d d' hg hd ih =>
    obtain ⟨k1, l1⟩ := g
    obtain ⟨k2, l2⟩ := g'
    obtain ⟨rfl, hl⟩ := hg
    simp only [groupInsert]
    split
    · exact .cons ⟨rfl, forall₂_append' hl (.cons hab .nil)⟩ hd
    · exact .cons ⟨rfl, hl⟩ ih

theorem groupBy_rel {κ α β : Type} [DecidableEq κ] {R : α → β → Prop} {key : α → κ} {key' : β → κ} (hk : ∀ a b, R a b → key a = key' b)
    {l : List α} {l' : List β} (h : List.Forall₂ R l l') :
    List.Forall₂ (fun g g' => g.1 = g'.1 ∧ List.Forall₂ R g.2 g'.2) (groupBy key l) (groupBy key' l') := by
  unfold groupBy
  suffices ∀ d d', List.Forall₂ (fun (g : κ × List α) (g' : κ × List β) => g.1 = g'.1 ∧ List.Forall₂ R g.2 g'.2) d d' →
      List.Forall₂ (fun g g' => g.1 = g'.1 ∧ List.Forall₂ R g.2 g'.2) (l.foldl (fun acc a => groupInsert (key a) a acc) d)
        (l'.foldl (fun acc a => groupInsert (key' a) a acc) d') from this [] [] .nil
  induction h with
  | nil => exact fun d d' h => h
  | cons hab _ ih =>
    intro d d' hd
    simp only [List.foldl_cons]
    apply ih
    rw [← hk _ _ hab]
    exact groupInsert_rel _ hab hd

theorem dictSet_rel {κ α β : Type} [DecidableEq κ] {R : α → β → Prop} (k : κ) {a : α} {b : β} (hab : R a b)
    {d : List (κ × α)} {d' : List (κ × β)} (h : List.Forall₂ (fun g g' => g.1 = g'.1 ∧ R g.2 g'.2) d d') :
    List.Forall₂ (fun g g' => g.1 = g'.1 ∧ R g.2 g'.2) (dictSet k a d) (dictSet k b d') := by
  induction h with
  | nil => exact .cons ⟨rfl, hab⟩ .nil
  | @cons g g' d d' hg hd ih =>
    obtain ⟨k1, l1⟩ := g
    obtain ⟨k2, l2⟩ := g'
    obtain ⟨rfl, hl⟩ := hg
    simp only [dictSet]
    split
    · exact .cons ⟨rfl, hab⟩ hd
    · exact .cons ⟨rfl, hl⟩ ih

theorem dictOf_rel {κ α β : Type} [DecidableEq κ] {R : α → β → Prop} {key : α → κ} {key' : β → κ} (hk : ∀ a b, R a b → key a = key' b)
    {l : List α} {l' : List β} (h : List.Forall₂ R l l') :
    List.Forall₂ (fun g g' => g.1 = g'.1 ∧ R g.2 g'.2) (dictOf key (fun a => a) l) (dictOf key' (fun a => a) l') := by
  unfold dictOf
  suffices ∀ d d', List.Forall₂ (fun (g : κ × α) (g' : κ × β) => g.1 = g'.1 ∧ R g.2 g'.2) d d' →
      List.Forall₂ (fun g g' => g.1 = g'.1 ∧ R g.2 g'.2) (l.foldl (fun acc a => dictSet (key a) a acc) d)
        (l'.foldl (fun acc a => dictSet (key' a) a acc) d') from this [] [] .nil
  induction h with
  | nil => exact fun d d' h => h
  | cons hab _ ih =>
    intro d d' hd
    simp only [List.foldl_cons]
    apply ih
    rw [← hk _ _ hab]
    exact dictSet_rel _ hab hd

theorem lookup_rel {κ α β : Type} [DecidableEq κ] {R : α → β → Prop} {d : List (κ × α)} {d' : List (κ × β)}
    (h : List.Forall₂ (fun g g' => g.1 = g'.1 ∧ R g.2 g'.2) d d') {k : κ} {a : α} (ha : d.lookup k = some a) : ∃ b, d'.lookup k = some b ∧ R a b := by
  induction h with
  | nil => cases ha
  | @cons g g' d d' hg hd ih =>
    obtain ⟨k1, l1⟩ := g
    obtain ⟨k2, l2⟩ := g'
    obtain ⟨rfl, hl⟩ := hg
    simp only [List.lookup_cons] at ha ⊢
    by_cases hk : (k == k1) = true
    · simp only [hk] at ha ⊢
      cases ha
      exact ⟨_, rfl, hl⟩
    · simp only [Bool.not_eq_true] at hk
      simp only [hk] at ha ⊢
      exact ih ha

/-! ## The relation -/

/-- An input with a code: functions that look for inputs without code skip it. -/
def LinkedInput (e : Exchange) : Prop := e.type = .fromTechnosphere ∧ e.code.getD "" ≠ ""

/-- The second list is the first with some blocks of elements that satisfy `S` in another order. -/
inductive Shuf {α : Type} (S : α → Prop) (g : α → Exchange) : List α → List α → Prop
  | nil : Shuf S g [] []
  | same (a : α) {l l' : List α} : Shuf S g l l' → Shuf S g (a :: l) (a :: l')
  | block {s s' l l' : List α} : (∀ a ∈ s, S a) → (∀ a ∈ s', S a) → (s.map g).Perm (s'.map g) → Shuf S g l l' → Shuf S g (s ++ l) (s' ++ l')

theorem Shuf.refl {α : Type} {S : α → Prop} {g : α → Exchange} (l : List α) : Shuf S g l l := by
  induction l with
  | nil => exact .nil
  | cons a l ih => exact .same a ih

theorem Shuf.append {α : Type} {S : α → Prop} {g : α → Exchange} {l l' m m' : List α} (h : Shuf S g l l') (h' : Shuf S g m m') :
    Shuf S g (l ++ m) (l' ++ m') := by
  induction h with
  | nil => exact h'
  | same a _ ih => exact .same a ih
  | block h1 h2 hp _ ih => rw [List.append_assoc, List.append_assoc]; exact .block h1 h2 hp ih

theorem Shuf.perm {α : Type} {S : α → Prop} {g : α → Exchange} {l l' : List α} (h : Shuf S g l l') : (l.map g).Perm (l'.map g) := by
  induction h with
  | nil => exact .nil
  | same a _ ih => exact ih.cons _
  | block h1 h2 hp _ ih => rw [List.map_append, List.map_append]; exact hp.append ih

theorem Shuf.map {α β : Type} {S : α → Prop} {T : β → Prop} {g : α → Exchange} {g' : β → Exchange} {f : α → β} {u : Exchange → Exchange}
    (hf : ∀ a, S a → T (f a) ∧ g' (f a) = u (g a)) {l l' : List α} (h : Shuf S g l l') : Shuf T g' (l.map f) (l'.map f) := by
  induction h with
  | nil => exact .nil
  | same a _ ih => exact .same _ ih
  | @block s s' l l' h1 h2 hp _ ih =>
    rw [List.map_append, List.map_append]
    refine .block ?_ ?_ ?_ ih
    · intro b hb
      obtain ⟨a, ha, rfl⟩ := List.mem_map.mp hb
      exact (hf a (h1 a ha)).1
    · intro b hb
      obtain ⟨a, ha, rfl⟩ := List.mem_map.mp hb
      exact (hf a (h2 a ha)).1
    · have e1 : (s.map f).map g' = (s.map g).map u := by
        rw [List.map_map, List.map_map]
        exact List.map_congr_left fun a ha => (hf a (h1 a ha)).2
      have e2 : (s'.map f).map g' = (s'.map g).map u := by
        rw [List.map_map, List.map_map]
        exact List.map_congr_left fun a ha => (hf a (h2 a ha)).2
      rw [e1, e2]
      exact hp.map u

theorem Shuf.filter_true {α : Type} {S : α → Prop} {g : α → Exchange} {q : α → Bool} (hq : ∀ a, S a → q a = true) {l l' : List α}
    (h : Shuf S g l l') : Shuf S g (l.filter q) (l'.filter q) := by
  induction h with
  | nil => exact .nil
  | same a _ ih =>
    rw [List.filter_cons, List.filter_cons]
    split
    · exact .same a ih
    · exact ih
  | @block s s' l l' h1 h2 hp _ ih =>
    rw [List.filter_append, List.filter_append, List.filter_eq_self.mpr fun a ha => hq a (h1 a ha),
      List.filter_eq_self.mpr fun a ha => hq a (h2 a ha)]
    exact .block h1 h2 hp ih

theorem Shuf.filter_false {α : Type} {S : α → Prop} {g : α → Exchange} {q : α → Bool} (hq : ∀ a, S a → q a = false) {l l' : List α}
    (h : Shuf S g l l') : l.filter q = l'.filter q := by
  induction h with
  | nil => rfl
  | same a _ ih => rw [List.filter_cons, List.filter_cons, ih]
  | @block s s' l l' h1 h2 hp _ ih =>
    have e1 : s.filter q = [] := List.filter_eq_nil_iff.mpr fun a ha => by simp [hq a (h1 a ha)]
    have e2 : s'.filter q = [] := List.filter_eq_nil_iff.mpr fun a ha => by simp [hq a (h2 a ha)]
    rw [List.filter_append, List.filter_append, e1, e2, ih]

/-- Shuffled exchanges. -/
abbrev ShufE : List Exchange → List Exchange → Prop := Shuf LinkedInput id

theorem ShufE.mapE {f : Exchange → Except Err Exchange} (hf : ∀ e e', LinkedInput e → f e = .ok e' → LinkedInput e') {l l' r : List Exchange}
    (h : ShufE l l') (hr : mapE f l = .ok r) : ∃ r', Ocelot.mapE f l' = .ok r' ∧ ShufE r r' := by
  induction h generalizing r with
  | nil => cases hr; exact ⟨[], rfl, .nil⟩
  | same a _ ih =>
    obtain ⟨b, r1, h1, h2, rfl⟩ := mapE_cons_ok.mp hr
    obtain ⟨r1', h2', h3⟩ := ih h2
    exact ⟨b :: r1', mapE_cons_ok.mpr ⟨b, r1', h1, h2', rfl⟩, .same b h3⟩
  | @block s s' l l' h1 h2 hp _ ih =>
    obtain ⟨r1, r2, e1, e2, rfl⟩ := mapE_append.mp hr
    obtain ⟨r2', e2', h3⟩ := ih e2
    obtain ⟨r1', e1', p1⟩ := mapE_perm (by simpa using hp) e1
    refine ⟨r1' ++ r2', mapE_append.mpr ⟨r1', r2', e1', e2', rfl⟩, .block ?_ ?_ (by simpa using p1) h3⟩
    · intro b hb
      obtain ⟨a, ha, hab⟩ := mapE_mem e1 hb
      exact hf a b (h1 a ha) hab
    · intro b hb
      obtain ⟨a, ha, hab⟩ := mapE_mem e1' hb
      exact hf a b (h2 a ha) hab

/-- Lists of suppliers in another order. -/
abbrev ShufS : Option (List Exchange) → Option (List Exchange) → Prop := Option.Rel List.Perm

/-- The same dataset, with suppliers and linked inputs in another order. -/
structure Shuffled (d d' : Dataset) : Prop where
  rest : d' = { d with exchanges := d'.exchanges, suppliers := d'.suppliers }
  exchanges : ShufE d.exchanges d'.exchanges
  suppliers : ShufS d.suppliers d'.suppliers
  codes : ∀ l, d.suppliers = some l → ∀ s ∈ l, s.code.getD "" ≠ ""
  code : d.code.getD "" ≠ ""

namespace Shuffled
variable {d d' : Dataset} (h : Shuffled d d')
include h

theorem name : d'.name = d.name := by rw [h.rest]
theorem location : d'.location = d.location := by rw [h.rest]
theorem type : d'.type = d.type := by rw [h.rest]
theorem refProduct : d'.refProduct = d.refProduct := by rw [h.rest]
theorem codeEq : d'.code = d.code := by rw [h.rest]
theorem technologyLevel : d'.technologyLevel = d.technologyLevel := by rw [h.rest]
theorem id : d'.id = d.id := by rw [h.rest]

theorem refs : referenceProducts d' = referenceProducts d := by
  unfold referenceProducts
  exact (h.exchanges.filter_false fun e he => by simp [he.1]).symm

theorem single : getSingleReferenceProduct d' = getSingleReferenceProduct d := by
  unfold getSingleReferenceProduct; rw [h.refs]

theorem volume : productionVolume d' = productionVolume d := by unfold productionVolume; rw [h.refs]
theorem originalVolume : originalProductionVolume d' = originalProductionVolume d := by unfold originalProductionVolume; rw [h.refs]

theorem entry : supplierEntry d' = supplierEntry d := by
  unfold supplierEntry annotateExchange
  rw [h.single, h.location, h.codeEq, h.technologyLevel, h.name]

theorem codes' : ∀ l, d'.suppliers = some l → ∀ s ∈ l, s.code.getD "" ≠ "" := by
  intro l hl s hs
  have := h.suppliers
  rw [hl] at this
  cases hd : d.suppliers with
  | none => rw [hd] at this; cases this
  | some m =>
    rw [hd] at this
    cases this with
    | some hp => exact h.codes m hd s (hp.mem_iff.mpr hs)

end Shuffled

/-- Shuffled lists of datasets with different codes. -/
structure ShufD (data data' : List Dataset) : Prop where
  each : List.Forall₂ Shuffled data data'
  nodup : (data.map (·.code)).Nodup

theorem ShufD.codes {data data' : List Dataset} (h : ShufD data data') : data'.map (·.code) = data.map (·.code) :=
  (forall₂_map_eq' h.each fun _ _ hab => hab.codeEq.symm).symm

theorem ShufD.nodup' {data data' : List Dataset} (h : ShufD data data') : (data'.map (·.code)).Nodup := by rw [h.codes]; exact h.nodup

/-- A function that gives shuffled results for shuffled data. -/
def Keeping (f f' : List Dataset → Except Err (List Dataset)) : Prop :=
  ∀ data data' out, ShufD data data' → f data = .ok out → ∃ out', f' data' = .ok out' ∧ ShufD out out'

theorem shufD_of_map {data out out' : List Dataset} (hn : (data.map (·.code)).Nodup) (h : List.Forall₂ Shuffled out out')
    (hc : out.map (·.code) = data.map (·.code)) : ShufD out out' := ⟨h, hc ▸ hn⟩

theorem keeping_each {f f' : Dataset → Except Err Dataset}
    (hf : ∀ d d', Shuffled d d' → ∀ e, f d = .ok e → ∃ e', f' d' = .ok e' ∧ Shuffled e e' ∧ e.code = d.code) : Keeping (mapE f) (mapE f') := by
  intro data data' out h ho
  obtain ⟨out', h1, h2⟩ := mapE_rel (R := Shuffled) h.each ho fun a a' _ _ hq b hb => by
    obtain ⟨e', h1, h2, -⟩ := hf a a' hq b hb
    exact ⟨e', h1, h2⟩
  refine ⟨out', h1, shufD_of_map h.nodup h2 ?_⟩
  exact mapE_map_eq ho fun a ha b hb => by
    obtain ⟨a', -, hq⟩ := forall₂_mem_left h.each ha
    obtain ⟨-, -, -, h3⟩ := hf a a' hq b hb
    exact h3.symm

end Ocelot
