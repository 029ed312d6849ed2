import Verif.Spec.Parts
import Verif.Proofs.PartsConsequential
import Verif.Props.OrderConsequential

/-!
# C132: parts of the database that are not connected do not influence each other

The datasets of a database are divided in two parts (`Cut`), such that no dataset refers to anything of the other part: neither by
the name of an activity or a product, nor by a link. Then running a system model on one part alone gives for this part exactly what
running it on the whole database gives: the same datasets in the same order, with the same amounts, volumes, suppliers and codes.
-/

namespace Ocelot
open Spec Parts

/-- C132: what a run of the cut-off model makes of a part is what it makes of the part alone. -/
theorem C132_cutoff (c : Cut) (hc : c.Proper) (P : PipelineEnv) (config : List (FnItem Step)) (hcfg : config = cutoffConfig ∨ config = cutoffConfigRow) (data : List Dataset)
    (hd : c.Divides data) (hn : ∀ d ∈ data, d.suppliers = none) (out : List Item) (h : runConfig P config data = .ok out) :
    ∃ result : List Dataset, out = result.map .ds ∧ runConfig P config (c.part data) = .ok ((c.part result).map .ds) := by
  have hu : unwrapAll config = cutoffBefore ++ .addUniqueCodes :: (cutoffLinking ++ cutoffEnd) := by
    rcases hcfg with rfl | rfl
    · exact cutoff_unwrapped
    · exact cutoffRow_unwrapped
  rw [runConfig_eq, hu] at h ⊢
  have hsplit : cutoffBefore ++ .addUniqueCodes :: (cutoffLinking ++ cutoffEnd) = (cutoffBefore ++ .addUniqueCodes :: (cutoffLinking ++ cutoffEnd)).dropLast ++ [.adjustMarketSigns] := by
    decide +kernel
  obtain ⟨Y, rfl⟩ : ∃ Y : List Dataset, out = Y.map .ds := by
    rw [hsplit] at h
    exact ends_in_datasets P rfl h
  exact ⟨Y, rfl, cutoff_part hc P hd hn h⟩

/-- C132: the same for the consequential model. -/
theorem C132_consequential (c : Cut) (hc : c.Proper) (P : PipelineEnv) (data : List Dataset) (hd : c.Divides data) (hn : ∀ d ∈ data, d.suppliers = none)
    (out : List Item) (h : runConfig P consequentialConfig data = .ok out) :
    ∃ result : List Dataset, out = result.map .ds ∧ runConfig P consequentialConfig (c.part data) = .ok ((c.part result).map .ds) := by
  rw [runConfig_eq, consequential_unwrapped] at h ⊢
  have hsplit : consequentialBefore ++ .addUniqueCodes :: consequentialAfter = (consequentialBefore ++ .addUniqueCodes :: consequentialAfter.dropLast) ++ [.normalize] := by
    decide +kernel
  obtain ⟨Y, rfl⟩ : ∃ Y : List Dataset, out = Y.map .ds := by
    rw [hsplit] at h
    exact ends_in_datasets P rfl h
  exact ⟨Y, rfl, consequential_part hc P hd hn h⟩

/-- C132: so the rest of the database may be replaced by any other rest: the results for the part are the same. -/
theorem C132_rest (c : Cut) (hc : c.Proper) (P : PipelineEnv) (config : List (FnItem Step)) (hcfg : config = cutoffConfig ∨ config = cutoffConfigRow ∨ config = consequentialConfig)
    (data data' : List Dataset) (hpart : c.part data = c.part data') (hd : c.Divides data) (hd' : c.Divides data') (hn : ∀ d ∈ data ++ data', d.suppliers = none)
    (result result' : List Dataset) (h : runConfig P config data = .ok (result.map .ds)) (h' : runConfig P config data' = .ok (result'.map .ds)) :
    c.part result = c.part result' := by
  have key : ∀ (x : List Dataset) (r : List Dataset), c.Divides x → (∀ d ∈ x, d.suppliers = none) → runConfig P config x = .ok (r.map .ds) →
      runConfig P config (c.part x) = .ok ((c.part r).map .ds) := by
    intro x r hx hxn hr
    rcases hcfg with hc' | hc' | hc'
    · obtain ⟨y, hy, he⟩ := C132_cutoff c hc P config (.inl hc') x hx hxn _ hr
      rw [ds_inj hy]; exact he
    · obtain ⟨y, hy, he⟩ := C132_cutoff c hc P config (.inr hc') x hx hxn _ hr
      rw [ds_inj hy]; exact he
    · subst hc'
      obtain ⟨y, hy, he⟩ := C132_consequential c hc P x hx hxn _ hr
      rw [ds_inj hy]; exact he
  have h1 := key data result hd (fun d hm => hn d (List.mem_append_left _ hm)) h
  have h2 := key data' result' hd' (fun d hm => hn d (List.mem_append_right _ hm)) h'
  rw [hpart, h2] at h1
  exact (ds_inj (Except.ok.inj h1)).symm

/-! ## Examples -/

/-- The part of everything that has certain letters in its name. -/
def lettersCut (letters : List Char) : Cut where
  name s := s.toList.any letters.contains
  id s := s.toList.any letters.contains

/-- Everything about zinc. -/
def zincCut : Cut := lettersCut ['Z']

theorem letters_proper {letters : List Char} (h1 : (", Recycled Content cut-off".toList.any letters.contains) = false) (h2 : (", from ".toList.any letters.contains) = false) :
    (∀ a b, (lettersCut letters).name (a ++ ", Recycled Content cut-off" ++ b) = (lettersCut letters).name (a ++ b)) ∧
    ∀ a b, (lettersCut letters).name a = (lettersCut letters).name b → (lettersCut letters).name (a ++ ", from " ++ b) = (lettersCut letters).name a := by
  constructor
  · intro a b
    simp only [lettersCut, String.toList_append, List.any_append, h1, Bool.or_false]
  · intro a b hab
    simp only [lettersCut] at hab ⊢
    simp only [String.toList_append, List.any_append, h2, Bool.or_false, ← hab, Bool.or_self]

theorem zinc_proper : zincCut.Proper :=
  ⟨(letters_proper (by decide +kernel) (by decide +kernel)).1, (letters_proper (by decide +kernel) (by decide +kernel)).2, by decide +kernel⟩

/-- The same activities for zinc. -/
def zincOf (d : Dataset) : Dataset :=
  { d with name := "Z" ++ d.name, id := "Z" ++ d.id, filepath := "Z" ++ d.filepath, exchanges := d.exchanges.map fun e => { e with name := "Z" ++ e.name, id := "Z" ++ e.id, amount := 3 * e.amount } }

/-- Two chains, mixed. -/
def twoChains : List Dataset := exampleInput.flatMap fun d => [d, zincOf d]

instance (c : Cut) (b : Bool) (e : Exchange) : Decidable (∀ l, e.activityLink = some l → l ≠ "" → c.id l = b) :=
  match h : e.activityLink with
  | none => isTrue (fun _ hl => by cases hl)
  | some l => if hl : l ≠ "" → c.id l = b then isTrue (fun l' h' => by cases h'; exact hl) else isFalse (fun hh => hl (hh l rfl))

instance (c : Cut) (b : Bool) (d : Dataset) : Decidable (∀ r, d.refProduct = some r → c.name r = b) :=
  match h : d.refProduct with
  | none => isTrue (fun _ hr => by cases hr)
  | some r => if hr : c.name r = b then isTrue (fun r' h' => by cases h'; exact hr) else isFalse (fun hh => hr (hh r rfl))

instance (e : Exchange) : Decidable (IsElementaryFlow e) := by unfold IsElementaryFlow; infer_instance

instance (c : Cut) (b : Bool) (d : Dataset) : Decidable (c.On b d) :=
  decidable_of_iff (c.name d.name = b ∧ c.id d.id = b ∧ (∀ e ∈ d.exchanges, (IsElementaryFlow e ∧ e.conditional ≠ some true) ∨ c.name e.name = b) ∧
      (∀ e ∈ d.exchanges, ∀ l, e.activityLink = some l → l ≠ "" → c.id l = b) ∧ ∀ r, d.refProduct = some r → c.name r = b)
    ⟨fun h => ⟨h.1, h.2.1, h.2.2.1, h.2.2.2.1, h.2.2.2.2⟩, fun h => ⟨h.name, h.id, h.flows, h.links, h.product⟩⟩

instance (c : Cut) (data : List Dataset) : Decidable (c.Divides data) := by unfold Cut.Divides; infer_instance

/-- The hypotheses are met by two chains of three datasets, and the runs come to an end. -/
example : zincCut.Proper ∧ zincCut.Divides twoChains ∧ (∀ d ∈ twoChains, d.suppliers = none) ∧ twoChains.length = 6 ∧ (zincCut.part twoChains).length = 3 ∧
    (runConfig exampleP cutoffConfig twoChains).toOption.isSome ∧ (runConfig exampleP consequentialConfig twoChains).toOption.isSome := by
  refine ⟨zinc_proper, ?_, ?_, ?_, ?_, ?_, ?_⟩ <;> decide +kernel

/-- What becomes of the part: three datasets, linked to each other. -/
example : exampleRun cutoffConfig (zincCut.part twoChains) = (exampleRun cutoffConfig twoChains).map (fun l => l.filter fun r => zincCut.name r.name) ∧
    (exampleRun cutoffConfig (zincCut.part twoChains)).map List.length = some 3 := by
  refine ⟨?_, ?_⟩ <;> decide +kernel

/-- With constrained markets in the part and outside of it. -/
def twoConstrained : List Dataset := constrainedInput ++ constrainedInput.map fun d => { zincOf d with exchanges := (zincOf d).exchanges.map fun e => { e with activityLink := e.activityLink.map ("Z" ++ ·) } }

example : zincCut.Divides twoConstrained ∧ (∀ d ∈ twoConstrained, d.suppliers = none) ∧ (zincCut.part twoConstrained).length = 10 ∧
    ((zincCut.part twoConstrained).any fun d => d.exchanges.any fun e => e.conditional == some true) = true ∧ (runConfig exampleForth consequentialConfig twoConstrained).toOption.isSome := by
  refine ⟨?_, ?_, ?_, ?_, ?_⟩ <;> decide +kernel

/-! ## Where the assumption about refinery gas is needed -/

/-- Everything with a `v` or a `g`: van production and refinery gas. -/
def gasCut : Cut where
  name s := s.toList.any ['v', 'g'].contains
  id s := s.toList.any ['d'].contains

/-- C132 fails for a part that uses refinery gas and does not sell it: `link_consumers_to_markets` then uses the candidates for the
exchange before, whatever they are. Here the whole database runs to the end and the part alone does not. -/
theorem C132_gas : ∃ (c : Cut) (P : PipelineEnv) (data : List Dataset), (∀ a b, c.name (a ++ ", Recycled Content cut-off" ++ b) = c.name (a ++ b)) ∧
    (∀ a b, c.name a = c.name b → c.name (a ++ ", from " ++ b) = c.name a) ∧ c.Divides data ∧ Unlinked data ∧
    (∃ out, runConfig P cutoffConfig data = .ok out) ∧ ∃ e, runConfig P cutoffConfig (c.part data) = .error e := by
  refine ⟨gasCut, exampleForth, gasUsers, ?_, ?_, by decide +kernel, by unfold Unlinked; decide +kernel, ?_, ?_⟩
  · exact (letters_proper (letters := ['v', 'g']) (by decide +kernel) (by decide +kernel)).1
  · exact (letters_proper (letters := ['v', 'g']) (by decide +kernel) (by decide +kernel)).2
  · have h : (runConfig exampleForth cutoffConfig gasUsers).toOption.isSome = true := by decide +kernel
    cases hr : runConfig exampleForth cutoffConfig gasUsers with
    | error e => rw [hr] at h; cases h
    | ok out => exact ⟨out, rfl⟩
  · have h : (runConfig exampleForth cutoffConfig (gasCut.part gasUsers)).toOption.isSome = false := by decide +kernel
    cases hr : runConfig exampleForth cutoffConfig (gasCut.part gasUsers) with
    | error e => exact ⟨e, rfl⟩
    | ok out => rw [hr] at h; cases h

end Ocelot
