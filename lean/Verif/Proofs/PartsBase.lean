import Verif.Spec.Parts
import Verif.Proofs.PipelineRun
import Verif.Proofs.OrderTopology

/-! Functions that work on the parts of a database separately. -/

namespace Ocelot
namespace Parts
open Spec

/-- Is this a flow from or to nature? -/
def elemB (t : ExcType) : Bool := t == .fromEnvironment || t == .toEnvironment

theorem elemB_iff {e : Exchange} : elemB e.type = true ↔ IsElementaryFlow e := by unfold elemB IsElementaryFlow; simp

/-- What matters for the side of an exchange. -/
def labelOf (e : Exchange) : Bool × Option Bool × String × Option String := (elemB e.type, e.conditional, e.name, e.activityLink)

/-- The exchange is on the side `b`. -/
def OkE (c : Cut) (b : Bool) (e : Exchange) : Prop :=
  ((IsElementaryFlow e ∧ e.conditional ≠ some true) ∨ c.name e.name = b) ∧ ∀ l, e.activityLink = some l → l ≠ "" → c.id l = b

theorem OkE.like {c : Cut} {b : Bool} {e e' : Exchange} (h : labelOf e' = labelOf e) (he : OkE c b e) : OkE c b e' := by
  unfold labelOf at h
  simp only [Prod.mk.injEq] at h
  obtain ⟨h1, h2, h3, h4⟩ := h
  unfold OkE at he ⊢
  rw [← elemB_iff, h1, h2, h3, h4, elemB_iff]
  exact he

theorem OkE.named {c : Cut} {b : Bool} {e : Exchange} (he : OkE c b e) (h : elemB e.type = false) : c.name e.name = b := by
  rcases he.1 with h1 | h1
  · rw [elemB_iff.mpr h1.1] at h; cases h
  · exact h1

theorem OkE.renamed {c : Cut} {b : Bool} {e e' : Exchange} (he : OkE c b e) (hn : c.name e'.name = b) (hl : e'.activityLink = none ∨ e'.activityLink = e.activityLink) : OkE c b e' := by
  refine ⟨Or.inr hn, ?_⟩
  intro l h hne
  rcases hl with hl | hl
  · rw [hl] at h; cases h
  · exact he.2 l (hl ▸ h) hne

/-- The dataset is on the side `b`, with the codes of the suppliers if codes are given. -/
structure Whole (c : Cut) (J : Option (String → Bool)) (b : Bool) (d : Dataset) : Prop where
  name : c.name d.name = b
  id : c.id d.id = b
  exs : ∀ e ∈ d.exchanges, OkE c b e
  ref : ∀ r, d.refProduct = some r → c.name r = b
  sup : ∀ l, d.suppliers = some l → ∀ e ∈ l, c.name e.name = b
  code : ∀ j, J = some j → (∃ k, d.code = some k ∧ j k = b) ∧ ∀ l, d.suppliers = some l → ∀ e ∈ l, ∀ k, e.code = some k → j k = b

/-- Every dataset is on a side. -/
def Divided (c : Cut) (J : Option (String → Bool)) (X : List Dataset) : Prop := ∀ d ∈ X, Whole c J (c.name d.name) d

variable {c : Cut} {J : Option (String → Bool)} {b : Bool}

theorem Whole.self {d : Dataset} (h : Whole c J b d) : Whole c J (c.name d.name) d := by rw [h.name]; exact h

theorem Divided.part {X : List Dataset} (h : Divided c J X) : Divided c J (c.part X) := fun d hd => h d (List.mem_filter.mp hd).1

theorem mem_part {X : List Dataset} {d : Dataset} : d ∈ c.part X ↔ d ∈ X ∧ c.name d.name = true := List.mem_filter

/-- Replacing the exchanges. -/
theorem Whole.setEx {d d' : Dataset} {ex : List Exchange} (hd : d' = { d with exchanges := ex }) (h : Whole c J b d) (he : ∀ e ∈ ex, OkE c b e) : Whole c J b d' := by
  subst hd
  exact ⟨h.name, h.id, he, h.ref, h.sup, h.code⟩

theorem Whole.like {d d' : Dataset} {ex : List Exchange} (hd : d' = { d with exchanges := ex }) (h : Whole c J b d)
    (he : ∀ e' ∈ ex, ∃ e ∈ d.exchanges, labelOf e' = labelOf e) : Whole c J b d' :=
  h.setEx hd fun e' h' => by
    obtain ⟨e, h1, h2⟩ := he e' h'
    exact (h.exs e h1).like h2

/-- The second dataset is on the side of the first one. -/
def Keep (c : Cut) (J : Option (String → Bool)) (d d' : Dataset) : Prop := ∀ b, Whole c J b d → Whole c J b d'

theorem Keep.refl (d : Dataset) : Keep c J d d := fun _ h => h

theorem Keep.trans {a b d : Dataset} (h : Keep c J a b) (h' : Keep c J b d) : Keep c J a d := fun s hs => h' s (h s hs)

theorem Keep.like {d d' : Dataset} {ex : List Exchange} (hd : d' = { d with exchanges := ex }) (he : ∀ e' ∈ ex, ∃ e ∈ d.exchanges, labelOf e' = labelOf e) : Keep c J d d' :=
  fun _ h => h.like hd he

/-- Only other things change. -/
theorem Keep.frame {d d' : Dataset} (h1 : d'.name = d.name) (h2 : d'.id = d.id) (h3 : d'.exchanges = d.exchanges) (h4 : d'.refProduct = d.refProduct)
    (h5 : d'.suppliers = d.suppliers) (h6 : d'.code = d.code) : Keep c J d d' := by
  intro b h
  exact ⟨by rw [h1]; exact h.name, by rw [h2]; exact h.id, by rw [h3]; exact h.exs, by rw [h4]; exact h.ref, by rw [h5]; exact h.sup, by rw [h5, h6]; exact h.code⟩

theorem Keep.mapExchanges {g : Exchange → Exchange} (hg : ∀ e, labelOf (g e) = labelOf e) (d : Dataset) : Keep c J d { d with exchanges := d.exchanges.map g } := by
  refine .like rfl ?_
  intro e' he'
  obtain ⟨e, he, h⟩ := List.mem_map.mp he'
  exact ⟨e, he, h ▸ hg e⟩

theorem Keep.filterExchanges {p : Exchange → Bool} (d : Dataset) : Keep c J d { d with exchanges := d.exchanges.filter p } :=
  .like rfl fun e he => ⟨e, (List.mem_filter.mp he).1, rfl⟩

theorem Keep.mapExchangesE {g : Exchange → Except Err Exchange} (hg : ∀ e e', g e = .ok e' → labelOf e' = labelOf e) {d d' : Dataset} {ex : List Exchange}
    (hex : mapE g d.exchanges = .ok ex) (hd : d' = { d with exchanges := ex }) : Keep c J d d' := by
  refine .like hd ?_
  intro e' he
  obtain ⟨e, he, h⟩ := mapE_mem hex he
  exact ⟨e, he, hg e e' h⟩

/-! ## Functions on lists -/

/-- If the function works on the whole data, then it works on the part, with the part of the result. -/
def Local (c : Cut) (J : Option (String → Bool)) (f : List Dataset → Except Err (List Dataset)) : Prop :=
  ∀ X X', Divided c J X → f X = .ok X' → Divided c J X' ∧ f (c.part X) = .ok (c.part X')

theorem mapE_filter_of {α β : Type} {f f' : α → Except Err β} {l : List α} {r : List β} (h : mapE f l = .ok r) {p : α → Bool} {q : β → Bool}
    (hpq : ∀ a ∈ l, ∀ b, f a = .ok b → p a = q b) (hf : ∀ a ∈ l, p a = true → ∀ b, f a = .ok b → f' a = .ok b) : mapE f' (l.filter p) = .ok (r.filter q) := by
  induction l generalizing r with
  | nil => cases h; rfl
  | cons a l ih =>
    obtain ⟨b, r', h1, h2, rfl⟩ := mapE_cons_ok.mp h
    have hi := ih h2 (fun a ha => hpq a (by simp [ha])) (fun a ha => hf a (by simp [ha]))
    have hab := hpq a (by simp) b h1
    cases hp : p a with
    | true =>
      rw [List.filter_cons_of_pos hp, List.filter_cons_of_pos (hab ▸ hp)]
      exact mapE_cons_ok.mpr ⟨b, _, hf a (by simp) hp b h1, hi, rfl⟩
    | false =>
      rw [List.filter_cons_of_neg (by simp [hp]), List.filter_cons_of_neg (by simp [← hab, hp])]
      exact hi

/-- A function that changes each dataset, looking at the others. -/
theorem local_mapE_of {g : List Dataset → Dataset → Except Err Dataset} (hk : ∀ X, Divided c J X → ∀ d ∈ X, ∀ d', g X d = .ok d' → Keep c J d d')
    (hl : ∀ X, Divided c J X → ∀ d ∈ X, c.name d.name = true → ∀ d', g X d = .ok d' → g (c.part X) d = .ok d') : Local c J (fun X => mapE (g X) X) := by
  intro X X' hX h
  have hs : ∀ d ∈ X, ∀ d', g X d = .ok d' → Whole c J (c.name d.name) d' := fun d hd d' h' => hk X hX d hd d' h' _ (hX d hd)
  refine ⟨?_, mapE_filter_of h (fun d hd d' h' => (hs d hd d' h').name.symm) fun d hd h1 d' h' => hl X hX d hd h1 d' h'⟩
  intro d' hd'
  obtain ⟨d, hd, hg⟩ := mapE_mem h hd'
  exact (hs d hd d' hg).self

theorem local_mapE {g : Dataset → Except Err Dataset} (hk : ∀ d d', g d = .ok d' → Keep c J d d') : Local c J (mapE g) :=
  local_mapE_of (g := fun _ => g) (fun _ _ d _ d' h => hk d d' h) fun _ _ _ _ _ _ h => h

theorem local_map {g : Dataset → Dataset} (hk : ∀ d, Keep c J d (g d)) : Local c J (fun X => .ok (X.map g)) := by
  intro X X' hX h
  have := local_mapE (c := c) (J := J) (g := fun d => .ok (g d)) (fun d d' h => by cases h; exact hk d) X X' hX (by rw [mapE_pure]; exact h)
  rw [mapE_pure] at this
  exact this

theorem filter_flatten_of {l : List (List Dataset)} {p : List Dataset → Bool} (h : ∀ g ∈ l, ∀ d ∈ g, c.name d.name = p g) : c.part l.flatten = (l.filter p).flatten := by
  induction l with
  | nil => rfl
  | cons g l ih =>
    have hi := ih fun g hg => h g (by simp [hg])
    unfold Cut.part at hi ⊢
    rw [List.flatten_cons, List.filter_append, hi]
    cases hp : p g with
    | true =>
      rw [List.filter_cons_of_pos hp, List.flatten_cons, List.filter_eq_self.mpr fun d hd => (h g (by simp) d hd).trans hp]
    | false =>
      rw [List.filter_cons_of_neg (by simp [hp]), List.filter_eq_nil_iff.mpr fun d hd => by rw [h g (by simp) d hd, hp]; simp, List.nil_append]

theorem local_flatMapE {g : Dataset → Except Err (List Dataset)} (hk : ∀ d r, g d = .ok r → ∀ d' ∈ r, Keep c J d d') : Local c J (flatMapE g) := by
  intro X X' hX h
  have hs : ∀ d ∈ X, ∀ r, g d = .ok r → ∀ d' ∈ r, Whole c J (c.name d.name) d' := fun d hd r h' d' hd' => hk d r h' d' hd' _ (hX d hd)
  refine ⟨?_, ?_⟩
  · intro d' hd'
    obtain ⟨d, hd, r, hr, hm⟩ := flatMapE_mem h hd'
    exact (hs d hd r hr d' hm).self
  · induction X generalizing X' with
    | nil => cases h; rfl
    | cons d X ih =>
      obtain ⟨r, X'', h1, h2, rfl⟩ := flatMapE_cons_ok.mp h
      have hi := ih X'' (fun d hd => hX d (by simp [hd])) h2 (fun d hd => hs d (by simp [hd]))
      have hr := hs d (by simp) r h1
      unfold Cut.part at hi ⊢
      rw [List.filter_append]
      cases hd : c.name d.name with
      | true =>
        rw [List.filter_cons_of_pos (by simpa using hd), (List.filter_eq_self (l := r)).mpr fun d' hd' => by rw [(hr d' hd').name]; exact hd]
        exact flatMapE_cons_ok.mpr ⟨r, _, h1, hi, rfl⟩
      | false =>
        rw [List.filter_cons_of_neg (by simp [hd]), (List.filter_eq_nil_iff (l := r)).mpr fun d' hd' => by rw [(hr d' hd').name, hd]; simp]
        exact hi

/-- Functions that only look at the data. -/
theorem local_looks {α : Type} {f : List Dataset → Except Err α} (h : ∀ X, Divided c J X → ∀ u, f X = .ok u → ∃ u', f (c.part X) = .ok u') :
    Local c J (fun X => f X >>= fun _ => .ok X) := by
  intro X X' hX hf
  obtain ⟨u, hu, hf⟩ := bind_eq_ok.mp hf
  cases hf
  obtain ⟨u', hu'⟩ := h X hX u hu
  refine ⟨hX, ?_⟩
  simp only [hu']
  rfl

theorem local_comp {f g : List Dataset → Except Err (List Dataset)} (hf : Local c J f) (hg : Local c J g) : Local c J (fun X => f X >>= g) := by
  intro X X' hX h
  obtain ⟨Y, h1, h2⟩ := bind_eq_ok.mp h
  obtain ⟨a1, a2⟩ := hf X Y hX h1
  obtain ⟨b1, b2⟩ := hg Y X' a1 h2
  refine ⟨b1, ?_⟩
  simp only [a2]
  exact b2

/-- Deleting datasets. -/
theorem local_filter {p : Dataset → Bool} : Local c J (fun X => .ok (X.filter p)) := by
  intro X X' hX h
  cases h
  refine ⟨fun d hd => hX d (List.mem_filter.mp hd).1, ?_⟩
  unfold Cut.part
  rw [List.filter_comm]

theorem forE_part {f f' : Dataset → Except Err Unit} {X : List Dataset} {p : Dataset → Bool} (h : forE f X = .ok ()) (hf : ∀ d ∈ X, p d = true → f d = .ok () → f' d = .ok ()) :
    forE f' (X.filter p) = .ok () := by
  rw [forE_ok_iff] at h ⊢
  intro d hd
  obtain ⟨h1, h2⟩ := List.mem_filter.mp hd
  exact hf d h1 h2 (h d h1)

theorem mapE_part {α : Type} {g : Dataset → Except Err α} {X : List Dataset} {p q : Dataset → Bool} {r : List α} (h : mapE g (X.filter p) = .ok r) :
    ∃ r', mapE g ((X.filter q).filter p) = .ok r' := by
  apply mapE_ok_of_forall
  intro d hd
  obtain ⟨h1, h2⟩ := List.mem_filter.mp hd
  have hm : d ∈ X.filter p := List.mem_filter.mpr ⟨(List.mem_filter.mp h1).1, h2⟩
  obtain ⟨y, _, hy⟩ := forall₂_mem_left (mapE_ok_iff.mp h) hm
  exact ⟨y, hy⟩

/-! ## Dictionaries and groups of a part -/

theorem groupInsert_filter {α κ : Type} [DecidableEq κ] (q : κ → Bool) (k : κ) (a : α) (d : List (κ × List α)) :
    (groupInsert k a d).filter (fun g => q g.1) = if q k then groupInsert k a (d.filter fun g => q g.1) else d.filter fun g => q g.1 := by
  induction d with
  | nil => cases h : q k <;> simp [groupInsert, h]
  | cons g d ih =>
    obtain ⟨k', g⟩ := g
    by_cases hk : k' = k
    · subst hk
      cases h : q k' <;> simp [groupInsert, h]
    · cases h : q k' <;> cases h' : q k <;> simp_all [groupInsert]

theorem groupBy_filter {α κ : Type} [DecidableEq κ] {key : α → κ} {p : α → Bool} {q : κ → Bool} (l : List α) (h : ∀ a ∈ l, p a = q (key a)) :
    groupBy key (l.filter p) = (groupBy key l).filter fun g => q g.1 := by
  induction l using List.reverseRecOn with
  | nil => rfl
  | append_singleton l a ih =>
    rw [List.filter_append, groupBy_append_one, groupInsert_filter, ← ih fun a ha => h a (by simp [ha]), ← h a (by simp)]
    cases hp : p a with
    | true => rw [List.filter_cons_of_pos hp, List.filter_nil, groupBy_append_one]; rfl
    | false => rw [List.filter_cons_of_neg (by simp [hp]), List.filter_nil, List.append_nil]; rfl

theorem dictSet_filter {κ β : Type} [DecidableEq κ] (q : κ → Bool) (k : κ) (v : β) (d : List (κ × β)) :
    (dictSet k v d).filter (fun g => q g.1) = if q k then dictSet k v (d.filter fun g => q g.1) else d.filter fun g => q g.1 := by
  induction d with
  | nil => cases h : q k <;> simp [dictSet, h]
  | cons g d ih =>
    obtain ⟨k', g⟩ := g
    by_cases hk : k' = k
    · subst hk
      cases h : q k' <;> simp [dictSet, h]
    · cases h : q k' <;> cases h' : q k <;> simp_all [dictSet]

theorem dictOf_filter {α κ β : Type} [DecidableEq κ] {key : α → κ} {val : α → β} {p : α → Bool} {q : κ → Bool} (l : List α) (h : ∀ a ∈ l, p a = q (key a)) :
    dictOf key val (l.filter p) = (dictOf key val l).filter fun g => q g.1 := by
  induction l using List.reverseRecOn with
  | nil => rfl
  | append_singleton l a ih =>
    rw [List.filter_append, dictOf_append_one, dictSet_filter, ← ih fun a ha => h a (by simp [ha]), ← h a (by simp)]
    cases hp : p a with
    | true => rw [List.filter_cons_of_pos hp, List.filter_nil, dictOf_append_one]; rfl
    | false => rw [List.filter_cons_of_neg (by simp [hp]), List.filter_nil, List.append_nil]; rfl

/-- A selection that only takes datasets of the part does not need the others. -/
theorem filter_part {X : List Dataset} {p : Dataset → Bool} (h : ∀ d ∈ X, p d = true → c.name d.name = true) : (c.part X).filter p = X.filter p := by
  unfold Cut.part
  rw [List.filter_filter]
  refine List.filter_congr fun d hd => ?_
  cases hp : p d with
  | false => rfl
  | true => rw [h d hd hp]; rfl

end Parts
end Ocelot
