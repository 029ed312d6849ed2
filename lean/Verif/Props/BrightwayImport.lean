import Verif.Model.BrightwayImport
import Verif.Props.Brightway

/-! # Property C124: the import into a Brightway2 project -/

namespace Ocelot

namespace Spec

/-- The activities stored under a name. -/
def storedAs (p : Project) (name : String) : Option (List BwActivity) := (p.find? fun d => d.1 = name).map (·.2)

/-- The total of what an activity takes from or gives to a flow of the background database. -/
def backgroundEntry (a : BwActivity) (code : String) : ℚ :=
  ((a.exchanges.filter fun e => e.type = .biosphere ∧ e.input = some ("biosphere3", code)).map (·.amount)).sum

/-- The same from the dataset: all environmental flows that the background database knows by this code. -/
def environmentNet (E : BwEnv) (ds : Dataset) (code : String) : ℚ :=
  ((ds.exchanges.filter fun e => (e.type = .fromEnvironment ∨ e.type = .toEnvironment) ∧ e.name ≠ "refinery gas" ∧
    (e.compartment.bind fun c => E.flowCode (e.name, e.unit, c.1, c.2)) = some code).map (·.amount)).sum

end Spec

open Spec

theorem translateItems (db : String) (l : List Dataset) : mapE (translateItem db) (l.map .ocelot) = convertToBrightway db l := by
  unfold convertToBrightway
  induction l with
  | nil => rfl
  | cons d l ih =>
    rw [List.map_cons, mapE, mapE, ih]
    rfl

/-- **C124**, nothing else is touched: whatever happens, every database of the project keeps its activities, and at most the named database is new. -/
theorem C124_others (E : BwEnv) (db : String) (data : List ListItem) (p : Project) :
    (importIntoBrightway E db data p).2.1 = p ∨
      (db ∉ p.map (·.1) ∧ ∃ acts, (importIntoBrightway E db data p).2.1 = p ++ [(db, acts)]) := by
  unfold importIntoBrightway
  split
  · exact .inl rfl
  · split
    · exact .inl rfl
    · next h =>
      split
      · exact .inl rfl
      · next acts _ =>
        simp only
        split
        · exact .inl rfl
        · split
          · exact .inr ⟨h, _, rfl⟩
          · exact .inl rfl

/-- **C124**, all or nothing: the project changes exactly if the database is returned. -/
theorem C124_all_or_nothing (E : BwEnv) (db : String) (data : List ListItem) (p : Project) :
    (importIntoBrightway E db data p).2.1 = p ↔ ∀ n, (importIntoBrightway E db data p).2.2 ≠ .database n := by
  unfold importIntoBrightway
  split
  · simp
  · split
    · simp
    · split
      · simp
      · simp only
        split
        · simp
        · split <;> simp

/-- **C124**, refusals: an import that is refused, because the packages are missing, the name is taken, or a dataset cannot be exported, leaves the list and the project as they were. -/
theorem C124_refused (E : BwEnv) (db : String) (l : List Dataset) (p : Project)
    (h : E.installed = false ∨ db ∈ p.map (·.1) ∨ ∃ ds ∈ l, ∀ a, translateActivity db ds ≠ .ok a) :
    (importIntoBrightway E db (l.map .ocelot) p).1 = l.map .ocelot ∧ (importIntoBrightway E db (l.map .ocelot) p).2.1 = p ∧
      ((importIntoBrightway E db (l.map .ocelot) p).2.2 = .importError ∨ ∃ e, (importIntoBrightway E db (l.map .ocelot) p).2.2 = .raised e) := by
  unfold importIntoBrightway
  split
  · exact ⟨rfl, rfl, .inl rfl⟩
  · next hi =>
    split
    · exact ⟨rfl, rfl, .inr ⟨_, rfl⟩⟩
    · next hn =>
      rcases h with h | h | ⟨ds, hd, hx⟩
      · exact absurd (by rw [h]; rfl) hi
      · exact absurd h hn
      · rw [translateItems]
        split
        · exact ⟨rfl, rfl, .inr ⟨_, rfl⟩⟩
        · next acts hacts =>
          obtain ⟨a, _, ha⟩ := forall₂_mem_left ((C66_database db l acts).mp hacts) hd
          exact absurd ha (hx a)

theorem matchExchange_type (E : BwEnv) (b : BwExchange) : (matchExchange E b).type = b.type := by
  unfold matchExchange
  split <;> simp_all

theorem matchExchange_amount (E : BwEnv) (b : BwExchange) : (matchExchange E b).amount = b.amount := by
  unfold matchExchange
  split <;> rfl

theorem matchExchange_other (E : BwEnv) {b : BwExchange} (h : b.type ≠ .biosphere) : matchExchange E b = b := by
  unfold matchExchange
  split
  · next h1 _ => exact absurd h1 h
  · rfl

theorem sum_match (E : BwEnv) (t : BwType) (ht : t ≠ .biosphere) (db code : String) (bs : List BwExchange) :
    (((bs.map (matchExchange E)).filter fun e => e.type = t ∧ e.input = some (db, code)).map (·.amount)).sum =
      ((bs.filter fun e => e.type = t ∧ e.input = some (db, code)).map (·.amount)).sum := by
  induction bs with
  | nil => rfl
  | cons b bs ih =>
    rw [List.map_cons, List.filter_cons, List.filter_cons]
    by_cases hb : b.type = .biosphere
    · have h1 : ¬ (matchExchange E b).type = t := by rw [matchExchange_type, hb]; exact fun h => ht h.symm
      have h2 : ¬ b.type = t := by rw [hb]; exact fun h => ht h.symm
      simp only [h1, h2, false_and, decide_false, Bool.false_eq_true, if_false]
      exact ih
    · rw [matchExchange_other E hb]
      split
      · rw [List.map_cons, List.sum_cons, List.map_cons, List.sum_cons, ih]
      · exact ih

theorem matrix_match (E : BwEnv) (a : BwActivity) (db code : String) : matrixEntry (matchActivity E a) db code = matrixEntry a db code := by
  unfold matrixEntry matchActivity
  simp only
  rw [sum_match E .production (by decide), sum_match E .technosphere (by decide)]

theorem background_match (E : BwEnv) {db : String} {ds : Dataset} {a : BwActivity} (h : translateActivity db ds = .ok a) (hg : ∀ e ∈ ds.exchanges, (e.type = .fromEnvironment ∨ e.type = .toEnvironment) → e.name ≠ "refinery gas") (code : String) :
    backgroundEntry (matchActivity E a) code = environmentNet E ds code := by
  have hex := C66_exchanges h
  unfold backgroundEntry environmentNet matchActivity
  simp only
  generalize a.exchanges = bs at hex
  clear h
  induction hl : ds.exchanges generalizing bs ds with
  | nil =>
    rw [hl] at hex
    cases hex
    rfl
  | cons e es ih =>
    rw [hl, List.filter_cons] at hex
    have hg' : ∀ e' ∈ es, (e'.type = .fromEnvironment ∨ e'.type = .toEnvironment) → e'.name ≠ "refinery gas" := fun e' he' => hg e' (by rw [hl]; exact List.mem_cons_of_mem _ he')
    have hge := hg e (by rw [hl]; exact List.mem_cons_self)
    have ih' := fun bs hb => ih (ds := { ds with exchanges := es }) hg' bs hb rfl
    split at hex
    · next hx =>
      cases hex with
      | @cons _ b _ bs hb hbs =>
        have := ih' bs hbs
        rw [List.map_cons, List.filter_cons, List.filter_cons]
        rcases hb with ⟨ht, c, hc, rfl⟩ | ⟨ht, c, hc, rfl⟩ | ⟨ht, c, hc, rfl⟩ | ⟨ht, c, s, hc, rfl⟩
        · rw [if_neg (by simp [matchExchange]), if_neg (by simp [ht])]
          exact this
        · rw [if_neg (by simp [matchExchange]), if_neg (by simp [ht])]
          exact this
        · rw [if_neg (by simp [matchExchange]), if_neg (by simp [ht])]
          exact this
        · have hne := hge ht
          by_cases hk : E.flowCode (e.name, e.unit, c, s) = some code
          · rw [if_pos (by simp [matchExchange, hk]), if_pos (by simp only [decide_eq_true_eq]; exact ⟨ht, hne, by rw [hc]; exact hk⟩), List.map_cons, List.sum_cons, List.map_cons, List.sum_cons, this]
            simp [matchExchange]
          · rw [if_neg (by
              simp only [matchExchange, decide_eq_true_eq, not_and]
              intro _ hh
              obtain ⟨x, hx1, hx2⟩ := Option.map_eq_some_iff.mp hh
              cases hx2
              exact hk hx1), if_neg (by
              simp only [decide_eq_true_eq]
              rintro ⟨_, _, h1⟩
              rw [hc] at h1
              exact hk h1)]
            exact this
    · next hx =>
      rw [ih' bs hex]
      simp only [decide_eq_true_eq, not_and_or, not_not] at hx
      rcases hx with hx | ⟨hx, _⟩
      · rw [sum_filter_cons_zero _ _ hx]
      · rw [List.filter_cons, if_neg]
        simp only [decide_eq_true_eq]
        rintro ⟨_, hn, _⟩
        exact hn hx

/-- **C124**, what is written: if the database is returned, it is stored under its name with one activity for each dataset, in their order and with their code; every exchange of every activity is
linked; for every product code output minus input is that of the dataset, and for every flow of the background database the total is that of the dataset. -/
theorem C124_written {E : BwEnv} {db n : String} {l : List Dataset} {p : Project} (h : (importIntoBrightway E db (l.map .ocelot) p).2.2 = .database n) :
    n = db ∧ ∃ acts, storedAs (importIntoBrightway E db (l.map .ocelot) p).2.1 db = some acts ∧
      List.Forall₂ (fun (ds : Dataset) (a : BwActivity) => ds.code = some a.code ∧ a.name = ds.name ∧ a.location = ds.location ∧ a.database = db ∧
        (∀ b ∈ a.exchanges, b.input.isSome) ∧ (∀ code, code ≠ "" → matrixEntry a db code = linkedNet ds code) ∧
        ((∀ e ∈ ds.exchanges, (e.type = .fromEnvironment ∨ e.type = .toEnvironment) → e.name ≠ "refinery gas") → ∀ code, backgroundEntry a code = environmentNet E ds code)) l acts := by
  unfold importIntoBrightway at h ⊢
  split at h
  · cases h
  next hi =>
  rw [if_neg hi]
  split at h
  · cases h
  next hn =>
  rw [if_neg hn]
  rw [translateItems] at h ⊢
  split at h
  · cases h
  next acts hacts =>
  simp only at h ⊢
  split at h
  · cases h
  next hu =>
  split at h
  swap
  · cases h
  next hw =>
  cases h
  refine ⟨rfl, acts.map (matchActivity E), ?_, ?_⟩
  · rw [if_neg hu, if_pos hw]
    unfold storedAs
    simp only
    rw [List.find?_append]
    have : (p.find? fun d => decide (d.1 = db)) = none := by
      rw [List.find?_eq_none]
      intro d hd hh
      exact hn (List.mem_map.mpr ⟨d, hd, by simpa using hh⟩)
    rw [this]
    simp
  · have hall : ∀ a ∈ acts.map (matchActivity E), ∀ b ∈ a.exchanges, b.input.isSome := by
      intro a ha b hb
      by_contra hc
      apply hu
      unfold unlinkedCount
      intro h0
      rw [List.length_eq_zero_iff, List.filter_eq_nil_iff] at h0
      have := h0 b (List.mem_flatMap.mpr ⟨a, ha, hb⟩)
      rcases hb2 : b.input with _ | x
      · rw [hb2] at this; exact this rfl
      · rw [hb2] at hc; exact hc rfl
    rw [List.forall₂_map_right_iff]
    have := (C66_database db l acts).mp hacts
    clear hacts hu hw
    induction this with
    | nil => exact .nil
    | @cons ds a l acts hda _ ih =>
      rw [List.map_cons] at hall
      refine .cons ?_ (ih fun a' ha' => hall a' (List.mem_cons_of_mem _ ha'))
      obtain ⟨h1, h2, h3, -, h5, -⟩ := C66_fields hda
      exact ⟨h1, h2, h3, h5, hall _ List.mem_cons_self, fun code hc => by rw [matrix_match, C66_matrix hda code hc], fun hg code => background_match E hda hg code⟩

/-- **C124**, when the database is written: the packages are there, the name is free, every dataset can be exported, every environmental flow with an amount is known in the background database, and
Brightway2 accepts the activities. -/
theorem C124_written_iff (E : BwEnv) (db : String) (l : List Dataset) (p : Project) (hacc : ∀ acts, E.accepts acts = true) :
    (importIntoBrightway E db (l.map .ocelot) p).2.2 = .database db ↔
      E.installed = true ∧ db ∉ p.map (·.1) ∧ ∀ ds ∈ l, (∃ a, translateActivity db ds = .ok a) ∧
        ∀ e ∈ ds.exchanges, e.amount ≠ 0 → ¬ UnlinkedRefineryGas e → e.type = .fromEnvironment ∨ e.type = .toEnvironment →
          ∀ c s, e.compartment = some (c, s) → (E.flowCode (e.name, e.unit, c, s)).isSome := by
  have hone : ∀ ds a, translateActivity db ds = .ok a → ((∀ b ∈ (matchActivity E a).exchanges, b.input.isSome) ↔
      ∀ e ∈ ds.exchanges, e.amount ≠ 0 → ¬ UnlinkedRefineryGas e → e.type = .fromEnvironment ∨ e.type = .toEnvironment →
          ∀ c s, e.compartment = some (c, s) → (E.flowCode (e.name, e.unit, c, s)).isSome) := by
    intro ds a ha
    have hex := C66_exchanges ha
    constructor
    · intro hb e he h0 hr ht c s hc
      obtain ⟨b, hbm, hbe⟩ := forall₂_mem_left hex (List.mem_filter.mpr ⟨he, by simpa using ⟨h0, hr⟩⟩)
      have := hb (matchExchange E b) (List.mem_map.mpr ⟨b, hbm, rfl⟩)
      rcases hbe with ⟨ht', _⟩ | ⟨ht', _⟩ | ⟨ht', _⟩ | ⟨_, c', s', hc', rfl⟩
      · rw [ht'] at ht; simp at ht
      · rw [ht'] at ht; simp at ht
      · rw [ht'] at ht; simp at ht
      · rw [hc] at hc'
        cases hc'
        simpa [matchExchange] using this
    · intro hb b' hb'
      obtain ⟨b, hbm, rfl⟩ := List.mem_map.mp hb'
      obtain ⟨e, hem, hbe⟩ := forall₂_mem_right hex hbm
      obtain ⟨he, hx⟩ := List.mem_filter.mp hem
      simp only [decide_eq_true_eq] at hx
      rcases hbe with ⟨_, c, _, rfl⟩ | ⟨_, c, _, rfl⟩ | ⟨_, c, _, rfl⟩ | ⟨ht, c, s, hc, rfl⟩
      · rfl
      · rfl
      · rfl
      · simpa [matchExchange] using hb e he hx.1 hx.2 ht c s hc
  have hcount : ∀ acts : List BwActivity, unlinkedCount acts = 0 ↔ ∀ a ∈ acts, ∀ b ∈ a.exchanges, b.input.isSome := by
    intro acts
    unfold unlinkedCount
    rw [List.length_eq_zero_iff, List.filter_eq_nil_iff]
    constructor
    · intro h a ha b hb
      have := h b (List.mem_flatMap.mpr ⟨a, ha, hb⟩)
      rcases hb2 : b.input with _ | x
      · rw [hb2] at this; exact absurd rfl this
      · rfl
    · intro h b hb
      obtain ⟨a, ha, hb⟩ := List.mem_flatMap.mp hb
      have := h a ha b hb
      rcases hb2 : b.input with _ | x
      · rw [hb2] at this; cases this
      · simp
  unfold importIntoBrightway
  rw [translateItems]
  by_cases hi : E.installed = true
  swap
  · have : E.installed = false := by simpa using hi
    simp [this]
  by_cases hn : db ∈ p.map (·.1)
  · rw [if_neg (by simp [hi]), if_pos hn]
    constructor
    · intro h; cases h
    · rintro ⟨_, h, _⟩; exact absurd hn h
  rw [if_neg (by simp [hi]), if_neg hn]
  cases hc : convertToBrightway db l with
  | error e =>
    simp only
    constructor
    · intro h; cases h
    · rintro ⟨_, _, h⟩
      obtain ⟨as, has⟩ := mapE_ok_of_forall (f := translateActivity db) (l := l) fun ds hd => (h ds hd).1
      unfold convertToBrightway at hc
      rw [has] at hc
      cases hc
  | ok acts =>
    have hf := (C66_database db l acts).mp hc
    simp only [hacc, if_true]
    have key : unlinkedCount (acts.map (matchActivity E)) = 0 ↔ ∀ ds ∈ l, (∃ a, translateActivity db ds = .ok a) ∧
        ∀ e ∈ ds.exchanges, e.amount ≠ 0 → ¬ UnlinkedRefineryGas e → e.type = .fromEnvironment ∨ e.type = .toEnvironment →
          ∀ c s, e.compartment = some (c, s) → (E.flowCode (e.name, e.unit, c, s)).isSome := by
      rw [hcount]
      constructor
      · intro h ds hd
        obtain ⟨a, ham, ha⟩ := forall₂_mem_left hf hd
        exact ⟨⟨a, ha⟩, (hone ds a ha).mp (h _ (List.mem_map.mpr ⟨a, ham, rfl⟩))⟩
      · intro h a' ha'
        obtain ⟨a, ham, rfl⟩ := List.mem_map.mp ha'
        obtain ⟨ds, hd, ha⟩ := forall₂_mem_right hf ham
        exact (hone ds a ha).mpr (h ds hd).2
    by_cases hk : unlinkedCount (acts.map (matchActivity E)) = 0
    · rw [if_neg (by simpa using hk)]
      exact ⟨fun _ => ⟨hi, hn, key.mp hk⟩, fun _ => rfl⟩
    · rw [if_pos hk]
      constructor
      · intro h; cases h
      · rintro ⟨_, _, h⟩; exact absurd (key.mpr h) hk

/-- **C124** fails: once the datasets were translated, whether or not a database was written, the caller's list no longer holds them, and every further import of the same list fails, under any name and
into any project, even when the first one only stopped because of an unknown flow. The full property asks that data that were not written can be imported again. -/
theorem C124_again_partial (E : BwEnv) (db : String) (l : List Dataset) (p : Project) (hl : l ≠ [])
    (h : (∃ acts, (importIntoBrightway E db (l.map .ocelot) p).2.2 = .importer acts) ∨ ∃ n, (importIntoBrightway E db (l.map .ocelot) p).2.2 = .database n) :
    (∃ acts : List BwActivity, (importIntoBrightway E db (l.map .ocelot) p).1 = acts.map .brightway ∧ acts.length = l.length) ∧
    ∀ (E' : BwEnv) (db' : String) (p' : Project), E'.installed = true → db' ∉ p'.map (·.1) →
      (importIntoBrightway E' db' (importIntoBrightway E db (l.map .ocelot) p).1 p').2.2 = .raised .valueError ∧
      (importIntoBrightway E' db' (importIntoBrightway E db (l.map .ocelot) p).1 p').2.1 = p' := by
  have hlist : ∃ acts : List BwActivity, (importIntoBrightway E db (l.map .ocelot) p).1 = acts.map .brightway ∧ acts.length = l.length := by
    unfold importIntoBrightway at h ⊢
    rw [translateItems] at h ⊢
    split at h
    · simp at h
    next hi =>
    rw [if_neg hi]
    split at h
    · simp at h
    next hn =>
    rw [if_neg hn]
    split at h
    · simp at h
    next acts hacts =>
    have hlen := ((C66_database db l acts).mp hacts).length_eq
    simp only
    split
    · exact ⟨_, rfl, by rw [List.length_map, hlen]⟩
    · split
      · exact ⟨_, rfl, by rw [List.length_map, hlen]⟩
      · exact ⟨_, rfl, by rw [List.length_map, hlen]⟩
  refine ⟨hlist, ?_⟩
  obtain ⟨acts, hacts, hlen⟩ := hlist
  intro E' db' p' hi hn
  rw [hacts]
  rcases acts with _ | ⟨a, acts⟩
  · exact absurd (List.length_eq_zero_iff.mp hlen.symm) hl
  · unfold importIntoBrightway
    rw [if_neg (by simp [hi]), if_neg hn, List.map_cons, mapE]
    exact ⟨rfl, rfl⟩

namespace Spec

/-- A background database that knows carbon dioxide to urban air. -/
def exampleBackground : BwEnv := { installed := true, flowCode := fun f => if f = ("co2", "kg", "air", "urban") then some "b1" else none, accepts := fun _ => true }

/-- The same without any flow. -/
def emptyBackground : BwEnv := { exampleBackground with flowCode := fun _ => none }

end Spec

/- The dataset of C66 is imported with all its exchanges; without the flow nothing is written, the list is lost, and the background database with the flow does not help any more. -/
example : (importIntoBrightway exampleBackground "db" [.ocelot exampleExport] [("other", [])]).2.2 = .database "db" := by decide +kernel
example : ∃ acts, storedAs (importIntoBrightway exampleBackground "db" [.ocelot exampleExport] [("other", [])]).2.1 "db" = some acts ∧ acts.map (backgroundEntry · "b1") = [3] := by
  refine ⟨_, rfl, ?_⟩; decide +kernel
example : environmentNet exampleBackground exampleExport "b1" = 3 := by decide +kernel
example : ∃ acts, (importIntoBrightway emptyBackground "db" [.ocelot exampleExport] []).2.2 = .importer acts := ⟨_, rfl⟩
example : (importIntoBrightway exampleBackground "db" (importIntoBrightway emptyBackground "db" [.ocelot exampleExport] []).1 []).2.2 = .raised .valueError := by decide +kernel
example : (importIntoBrightway exampleBackground "other" [.ocelot exampleExport] [("other", [])]).2.2 = .raised .assertionError := by decide +kernel

end Ocelot
