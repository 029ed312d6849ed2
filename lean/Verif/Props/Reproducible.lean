import Verif.Proofs.ShuffleConsumers

/-! # C108: neither the iteration order of sets nor the evaluation order of variables matters -/

namespace Ocelot
namespace Spec

/-- The same dataset, with its exchanges and its suppliers in another order. -/
def Reordered (d d' : Dataset) : Prop :=
  d.exchanges.Perm d'.exchanges ∧ Option.Rel List.Perm d.suppliers d'.suppliers ∧
    { d with exchanges := [], suppliers := none } = { d' with exchanges := [], suppliers := none }

/-- The same results, in the same order, with exchanges and suppliers of each dataset in another order. -/
def ReorderedItem : Item → Item → Prop
  | .ds d, .ds d' => Reordered d d'
  | .str s, .str s' => s = s'
  | _, _ => False

/-- Two processes with the same settings and data. They may iterate over sets in different orders, and evaluate the variables of a
dataset in different orders, provided that variables are evaluated after the ones that they use. -/
structure SameSettings (P P' : PipelineEnv) : Prop where
  rest : ∃ σ' ord', P' = { P with σ := σ', ord := ord' }
  sets : ∀ c n l, (P.σ c n l).Perm l
  sets' : ∀ c n l, (P'.σ c n l).Perm l
  order : ∀ d, (∃ err, P.ord d = .error err ∧ P'.ord d = .error err) ∨
    ∃ o o', P.ord d = .ok o ∧ P'.ord d = .ok o' ∧ AdmissibleOrder P.F d o ∧ AdmissibleOrder P.F d o'

end Spec

open Spec

theorem Spec.SameSettings.symm {P P' : PipelineEnv} (h : SameSettings P P') : SameSettings P' P := by
  obtain ⟨⟨σ', ord', rfl⟩, h1, h2, h3⟩ := h
  refine ⟨⟨P.σ, P.ord, rfl⟩, h2, h1, ?_⟩
  intro d
  rcases h3 d with ⟨e, h4, h5⟩ | ⟨o, o', h4, h5, h6, h7⟩
  · exact Or.inl ⟨e, h5, h4⟩
  · exact Or.inr ⟨o', o, h5, h4, h7, h6⟩

/-- The functions before codes are given do the same in both processes. -/
theorem run_same {P P' : PipelineEnv} (h : SameSettings P P') (s : Step)
    (hs : (match s with | .addRecycledContentSuppliers => false | .addSuppliers _ _ => false | _ => true) = true) : s.run P = s.run P' := by
  obtain ⟨⟨σ', ord', rfl⟩, h1, h2, h3⟩ := h
  have hrec : recalculateO P.M P.F P.ord = recalculateO P.M P.F ord' := by
    funext d
    unfold recalculateO
    rcases h3 d with ⟨e, h4, h5⟩ | ⟨o, o', h4, h5, h6, h7⟩
    · rw [h4, show ord' d = _ from h5]
    · rw [h4, show ord' d = _ from h5, ebind_ok, ebind_ok]
      exact C56_order_independent P.M P.F d o o' h6 h7
  have hcomb : combinedProduction P.M P.F P.ord = combinedProduction P.M P.F ord' := by
    funext d
    unfold combinedProduction
    rw [hrec]
  have hmeth : ∀ l, methodStep P.M P.F P.ord l = methodStep P.M P.F ord' l := by
    intro l
    funext i
    unfold methodStep allocationMethod datasetMethod combinedWithoutProducts combinedWithByproducts
    rw [hcomb]
  cases s <;> first | rfl | cases hs | skip
  · simp only [Step.run]
    rw [hmeth]
  · simp only [Step.run]
    rw [hcomb]

theorem runSteps_same {P P' : PipelineEnv} (h : SameSettings P P') (steps : List Step)
    (hs : ∀ s ∈ steps, (match s with | .addRecycledContentSuppliers => false | .addSuppliers _ _ => false | _ => true) = true) (items : List Item) :
    foldE (fun d s => s.run P d) items steps = foldE (fun d s => s.run P' d) items steps := by
  induction steps generalizing items with
  | nil => rfl
  | cons s l ih =>
    simp only [foldE]
    rw [run_same h s (hs s (by simp))]
    cases s.run P' items with
    | error e => rfl
    | ok r => exact ih (fun x hx => hs x (by simp [hx])) r

/-- Is this one of the functions that run after codes are given? -/
def Step.isLate : Step → Bool
  | .actualizeActivityLinks | .addRecycledContentSuppliers | .addSuppliers _ _ | .updateMarketVolumes _ | .deleteGlobalZeroPv _
  | .allocateMarketSuppliers _ | .linkMarketGroupSuppliers | .linkRecycledContent | .linkConsumersToMarkets | .addReferenceProductCodes
  | .logAndDeleteUnlinked | .deleteSuppliersList | .pruneByTechnologyLevel | .renameRecycledAfterLinking | .flipNonAllocatableByproducts
  | .normalize | .adjustMarketSigns => true
  | _ => false

theorem late_step {P P' : PipelineEnv} (h : SameSettings P P') {s : Step} (hs : s.isLate = true) :
    ∃ f f', s.run P = onDatasets f ∧ s.run P' = onDatasets f' ∧ Keeping f f' := by
  obtain ⟨⟨σ', ord', rfl⟩, h1, h2, -⟩ := h
  cases s <;> first | cases hs | skip
  · exact ⟨_, _, rfl, rfl, keeping_rename⟩
  · exact ⟨_, _, rfl, rfl, keeping_flip⟩
  · exact ⟨_, _, rfl, rfl, keeping_signs P.M⟩
  · exact ⟨_, _, rfl, rfl, keeping_actualize⟩
  · exact ⟨_, _, rfl, rfl, keeping_recycledSuppliers h1 h2⟩
  · exact ⟨_, _, rfl, rfl, keeping_suppliers h1 h2 _ _⟩
  · exact ⟨_, _, rfl, rfl, keeping_volumes P.T _⟩
  · exact ⟨_, _, rfl, rfl, keeping_zeroPv _⟩
  · exact ⟨_, _, rfl, rfl, keeping_allocate _⟩
  · exact ⟨_, _, rfl, rfl, keeping_groupSuppliers P.T⟩
  · exact ⟨_, _, rfl, rfl, keeping_recycled⟩
  · exact ⟨_, _, rfl, rfl, keeping_consumers P.M P.T⟩
  · exact ⟨_, _, rfl, rfl, keeping_refCodes⟩
  · exact ⟨_, _, rfl, rfl, keeping_unlinked⟩
  · exact ⟨_, _, rfl, rfl, keeping_deleteList⟩
  · exact ⟨_, _, rfl, rfl, keeping_prune⟩
  · exact ⟨_, _, rfl, rfl, keeping_normalize P.M⟩

theorem asDatasets_map (l : List Dataset) : asDatasets (l.map .ds) = .ok l := by
  induction l with
  | nil => rfl
  | cons a l ih => simp only [List.map_cons, asDatasets]; rw [ih]; rfl

theorem late_steps {P P' : PipelineEnv} (h : SameSettings P P') {steps : List Step} (hs : ∀ s ∈ steps, s.isLate = true) {data data' : List Dataset}
    (hd : ShufD data data') {out : List Item} (ho : foldE (fun d s => s.run P d) (data.map .ds) steps = .ok out) :
    ∃ out', foldE (fun d s => s.run P' d) (data'.map .ds) steps = .ok out' ∧ ∃ r r', out = r.map .ds ∧ out' = r'.map .ds ∧ ShufD r r' := by
  induction steps generalizing data data' with
  | nil => cases ho; exact ⟨_, rfl, data, data', rfl, rfl, hd⟩
  | cons s l ih =>
    simp only [foldE] at ho ⊢
    obtain ⟨mid, h1, h2⟩ := bind_eq_ok.mp ho
    obtain ⟨f, f', e1, e2, hk⟩ := late_step h (hs s (by simp))
    rw [e1] at h1
    unfold onDatasets at h1
    rw [asDatasets_map, ebind_ok] at h1
    obtain ⟨r, h3, h4⟩ := bind_eq_ok.mp h1
    cases h4
    obtain ⟨r', h5, h6⟩ := hk data data' r hd h3
    obtain ⟨out', h7, h8⟩ := ih (fun x hx => hs x (by simp [hx])) h6 h2
    refine ⟨out', bind_eq_ok.mpr ⟨r'.map .ds, ?_, h7⟩, h8⟩
    rw [e2]
    unfold onDatasets
    rw [asDatasets_map, ebind_ok, h5, ebind_ok]
    rfl

theorem reordered_of {d d' : Dataset} (h : Shuffled d d') : Reordered d d' := by
  refine ⟨by simpa using h.exchanges.perm, h.suppliers, ?_⟩
  obtain ⟨a, b, rfl⟩ := h.inv
  rfl

theorem reordered_items {r r' : List Dataset} (h : List.Forall₂ Shuffled r r') : List.Forall₂ ReorderedItem (r.map .ds) (r'.map .ds) :=
  forall₂_mapTo h fun _ _ hab => reordered_of hab

/-- Coded datasets in which nothing is linked are the starting point. -/
theorem shufD_coded {data coded : List Dataset} (hu : Unlinked data) (hf : ∀ d' ∈ coded, ∃ d ∈ data, From d d') (hne : ∀ d ∈ coded, d.code.getD "" ≠ "")
    (hn : (coded.map (·.code)).Nodup) : ShufD coded coded := by
  refine ⟨List.forall₂_same.mpr fun d hd => ⟨rfl, Shuf.refl _, ?_, ?_, hne d hd⟩, hn⟩
  · cases d.suppliers with
    | none => exact .none
    | some l => exact .some (.refl l)
  · intro l hl
    obtain ⟨x, hx, hxd⟩ := hf d hd
    rcases hxd.suppliers with h1 | h1
    · rw [h1] at hl; cases hl
    · rw [h1, (hu x hx).1] at hl; cases hl

theorem addCodesFrom_code {hash : Dataset → String} {seen : List String} {data out : List Dataset} (h : addCodesFrom hash seen data = .ok out) :
    ∀ d ∈ out, ∃ x, d.code = some (hash x) := by
  induction data generalizing seen out with
  | nil => cases h; intro d hd; cases hd
  | cons a l ih =>
    simp only [addCodesFrom] at h
    split at h
    · cases h
    · obtain ⟨r, h1, h2⟩ := bind_eq_ok.mp h
      cases h2
      intro d hd
      rcases List.mem_cons.mp hd with rfl | hd
      · exact ⟨a, rfl⟩
      · exact ih h1 d hd

/-- Two runs, given a common part up to the codes. -/
theorem runs_reordered {P P' : PipelineEnv} (h : SameSettings P P') (before after : List Step)
    (hb : ∀ s ∈ before ++ [.addUniqueCodes], (match s with | .addRecycledContentSuppliers => false | .addSuppliers _ _ => false | _ => true) = true)
    (ha : ∀ s ∈ after, s.isLate = true) {data : List Dataset} {out : List Item} (hu : Unlinked data) (hmd : ∀ s, P.md5 s ≠ "") (hcodes : ∃ q, CodesOf P q before data out)
    (ho : foldE (fun d s => s.run P d) (data.map .ds) (before ++ .addUniqueCodes :: after) = .ok out) :
    ∃ out', foldE (fun d s => s.run P' d) (data.map .ds) (before ++ .addUniqueCodes :: after) = .ok out' ∧ List.Forall₂ ReorderedItem out out' := by
  obtain ⟨q, coded, result, hs, -, hc, hn, hf, -⟩ := hcodes
  rw [show before ++ Step.addUniqueCodes :: after = (before ++ [.addUniqueCodes]) ++ after from by simp] at ho ⊢
  obtain ⟨mid, h1, h2⟩ := foldE_split.mp ho
  have hmid : mid = coded.map .ds := Except.ok.inj (h1.symm.trans hs)
  subst hmid
  have hne : ∀ d ∈ coded, d.code.getD "" ≠ "" := by
    obtain ⟨m0, h3, h4⟩ := foldE_split.mp h1
    simp only [foldE] at h4
    obtain ⟨m1, h5, h6⟩ := bind_eq_ok.mp h4
    obtain ⟨l, r, -, hr, hre⟩ := onDatasets_ok h5
    cases h6
    have : coded = r := List.map_injective_iff.mpr (fun x y hxy => by cases hxy; rfl) hre
    subst this
    intro d hd
    obtain ⟨x, hx⟩ := addCodesFrom_code hr d hd
    rw [hx]
    exact hmd _
  obtain ⟨out', h7, r, r', rfl, rfl, h8⟩ := late_steps h ha (shufD_coded hu hf hne hn) h2
  refine ⟨_, foldE_split.mpr ⟨_, ?_, h7⟩, reordered_items h8.each⟩
  rw [← runSteps_same h _ hb]
  exact h1

theorem cutoff_reordered {P P' : PipelineEnv} (h : SameSettings P P') {data : List Dataset} {out : List Item} (hu : Unlinked data) (hmd : ∀ s, P.md5 s ≠ "")
    (ho : runConfig P cutoffConfig data = .ok out) : ∃ out', runConfig P' cutoffConfig data = .ok out' ∧ List.Forall₂ ReorderedItem out out' := by
  have hc := cutoff_codes ho
  rw [runConfig_eq, cutoff_unwrapped] at ho ⊢
  exact runs_reordered h cutoffBefore (cutoffLinking ++ cutoffEnd) (by decide) (by decide) hu hmd ⟨_, hc⟩ ho

theorem consequential_reordered {P P' : PipelineEnv} (h : SameSettings P P') {data : List Dataset} {out : List Item} (hu : Unlinked data) (hmd : ∀ s, P.md5 s ≠ "")
    (ho : runConfig P consequentialConfig data = .ok out) : ∃ out', runConfig P' consequentialConfig data = .ok out' ∧ List.Forall₂ ReorderedItem out out' := by
  have hc := consequential_codes ho
  rw [runConfig_eq, consequential_unwrapped] at ho ⊢
  exact runs_reordered h consequentialBefore consequentialAfter (by decide) (by decide) hu hmd ⟨_, hc⟩ ho

theorem both_or_neither {ε α : Type} {r r' : Except ε α} {R : α → α → Prop} (h : ∀ a, r = .ok a → ∃ a', r' = .ok a' ∧ R a a')
    (h' : ∀ a', r' = .ok a' → ∃ a, r = .ok a) : (∃ e e', r = .error e ∧ r' = .error e') ∨ ∃ a a', r = .ok a ∧ r' = .ok a' ∧ R a a' := by
  cases r with
  | ok a => obtain ⟨a', h1, h2⟩ := h a rfl; exact Or.inr ⟨a, a', rfl, h1, h2⟩
  | error e =>
    cases r' with
    | ok a' => obtain ⟨a, h1⟩ := h' a' rfl; cases h1
    | error e' => exact Or.inl ⟨e, e', rfl, rfl⟩

/-! ## C108 -/

/-- C108: two processes with the same settings and data, which iterate over sets and evaluate variables in different orders, both
fail in the cut-off model, or return the same datasets, up to the order of exchanges and suppliers. -/
theorem C108_cutoff (P P' : PipelineEnv) (data : List Dataset) (h : SameSettings P P') (hu : Unlinked data) (hmd : ∀ s, P.md5 s ≠ "") :
    (∃ e e', runConfig P cutoffConfig data = .error e ∧ runConfig P' cutoffConfig data = .error e') ∨
      ∃ out out', runConfig P cutoffConfig data = .ok out ∧ runConfig P' cutoffConfig data = .ok out' ∧ List.Forall₂ ReorderedItem out out' := by
  refine both_or_neither (fun out ho => cutoff_reordered h hu hmd ho) fun out ho => ?_
  have hmd' : ∀ s, P'.md5 s ≠ "" := by obtain ⟨⟨_, _, rfl⟩, -⟩ := h; exact hmd
  obtain ⟨a, h1, -⟩ := cutoff_reordered h.symm hu hmd' ho
  exact ⟨a, h1⟩

/-- C108: so it is in the consequential model. -/
theorem C108_consequential (P P' : PipelineEnv) (data : List Dataset) (h : SameSettings P P') (hu : Unlinked data) (hmd : ∀ s, P.md5 s ≠ "") :
    (∃ e e', runConfig P consequentialConfig data = .error e ∧ runConfig P' consequentialConfig data = .error e') ∨
      ∃ out out', runConfig P consequentialConfig data = .ok out ∧ runConfig P' consequentialConfig data = .ok out' ∧ List.Forall₂ ReorderedItem out out' := by
  refine both_or_neither (fun out ho => consequential_reordered h hu hmd ho) fun out ho => ?_
  have hmd' : ∀ s, P'.md5 s ≠ "" := by obtain ⟨⟨_, _, rfl⟩, -⟩ := h; exact hmd
  obtain ⟨a, h1, -⟩ := consequential_reordered h.symm hu hmd' ho
  exact ⟨a, h1⟩

/-! ## Example -/

/-- A market with two suppliers of one activity. -/
def exampleTwo : List Dataset :=
  { name := "steel production", location := "US", id := "d", filepath := "d.spold", technologyLevel := some "current", startDate := some "2000", endDate := some "2010", exchanges := [{ name := "steel", id := "6", type := .referenceProduct, cls := some .allocatable, amount := 1, pv := some { amount := 300 } }] } :: exampleInput

/-- One process, which evaluates datasets without variables … -/
def exampleForth : PipelineEnv :=
  { exampleP2 with md5 := fun s => "#" ++ s, ord := fun d => if d.numObjs.filterMap (·.var) = [] then .ok [] else .error .parameterError }

/-- … and another one, which iterates over sets the other way round. -/
def exampleBack : PipelineEnv := { exampleForth with σ := fun _ _ l => l.reverse }

/-- The inputs of the market for steel. -/
def marketInputs (P : PipelineEnv) (c : List (FnItem Step)) : Option (List (List (ℚ × Option String))) :=
  (runConfig P c exampleTwo).toOption.map fun l => (l.filterMap fun i => match i with | .ds d => if d.type = .market then some d else none | .str _ => none).map
    fun d => (d.exchanges.filter fun e => e.type == .fromTechnosphere).map fun e => (e.amount, e.code)

/-- The two processes have the same settings. -/
example : SameSettings exampleForth exampleBack ∧ Unlinked exampleTwo ∧ ∀ s, exampleForth.md5 s ≠ "" := by
  refine ⟨⟨⟨_, exampleForth.ord, rfl⟩, fun _ _ l => .refl l, fun _ _ l => List.reverse_perm l, ?_⟩, ?_, ?_⟩
  · intro d
    by_cases h : d.numObjs.filterMap (·.var) = []
    · refine Or.inr ⟨[], [], if_pos h, if_pos h, ?_⟩
      have : AdmissibleOrder exampleForth.F d [] := by
        refine ⟨List.nodup_nil, ?_, ?_⟩
        · intro v
          constructor
          · intro hv; cases hv
          · rintro ⟨o, ho, hv⟩
            have : v ∈ d.numObjs.filterMap (·.var) := List.mem_filterMap.mpr ⟨o, ho, hv⟩
            rw [h] at this
            cases this
        · intro pre k post hpre
          simp at hpre
      exact ⟨this, this⟩
    · exact Or.inl ⟨_, if_neg h, if_neg h⟩
  · unfold Unlinked; decide +kernel
  · intro s h
    have := congrArg String.length h
    simp [exampleForth, String.length_append] at this

/-- Both processes run to the end, and their results are in different orders. -/
example : let rer := ((1 / 4 : ℚ), some "#steel productionsteelRER20002010")
    let us := ((3 / 4 : ℚ), some "#steel productionsteelUS20002010")
    marketInputs exampleForth cutoffConfig = some [[rer, us]] ∧ marketInputs exampleBack cutoffConfig = some [[us, rer]] ∧
    marketInputs exampleForth consequentialConfig = some [[rer, us]] ∧ marketInputs exampleBack consequentialConfig = some [[us, rer]] := by
  refine ⟨?_, ?_, ?_, ?_⟩ <;> decide +kernel

end Ocelot
