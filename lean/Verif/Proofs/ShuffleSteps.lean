import Verif.Proofs.Shuffle

/-! Each function that runs after `add_unique_codes` gives shuffled results for shuffled data. -/

namespace Ocelot
open Spec

/-! ## Small things -/

theorem Shuffled.inv {d d' : Dataset} (h : Shuffled d d') : ∃ ex' sup', d' = { d with exchanges := ex', suppliers := sup' } := ⟨_, _, h.rest⟩

theorem mapE_ok_weaken {α β : Type} {f g : α → Except Err β} {l : List α} {r : List β} (h : mapE f l = .ok r)
    (hfg : ∀ a ∈ l, ∀ b, f a = .ok b → g a = .ok b) : mapE g l = .ok r := by
  induction l generalizing r with
  | nil => exact h
  | cons a l ih =>
    obtain ⟨b, r1, h1, h2, rfl⟩ := mapE_cons_ok.mp h
    exact mapE_cons_ok.mpr ⟨b, r1, hfg a (by simp) b h1, ih h2 fun x hx => hfg x (by simp [hx]), rfl⟩

theorem forall₂_filter {α β : Type} {R : α → β → Prop} {l : List α} {l' : List β} (h : List.Forall₂ R l l') {p : α → Bool} {q : β → Bool}
    (hp : ∀ a b, R a b → p a = q b) : List.Forall₂ R (l.filter p) (l'.filter q) := forall₂_filter_rel h hp

theorem Shuffled.mapExchanges {d d' : Dataset} (h : Shuffled d d') {f : Exchange → Except Err Exchange}
    (hf : ∀ e e', LinkedInput e → f e = .ok e' → LinkedInput e') {ex : List Exchange} (he : mapE f d.exchanges = .ok ex) :
    ∃ ex', mapE f d'.exchanges = .ok ex' ∧ Shuffled { d with exchanges := ex } { d' with exchanges := ex' } := by
  obtain ⟨ex', h1, h2⟩ := h.exchanges.mapE hf he
  refine ⟨ex', h1, ?_⟩
  obtain ⟨a, b, rfl⟩ := h.inv
  exact ⟨rfl, h2, h.suppliers, h.codes, h.code⟩

theorem Shuffled.mapPure {d d' : Dataset} (h : Shuffled d d') {f : Exchange → Exchange} (hf : ∀ e, LinkedInput e → LinkedInput (f e)) :
    Shuffled { d with exchanges := d.exchanges.map f } { d' with exchanges := d'.exchanges.map f } := by
  have : ShufE (d.exchanges.map f) (d'.exchanges.map f) := Shuf.map (S := LinkedInput) (g := fun e => e) (u := f) (fun e he => ⟨hf e he, rfl⟩) h.exchanges
  obtain ⟨a, b, rfl⟩ := h.inv
  exact ⟨rfl, this, h.suppliers, h.codes, h.code⟩

theorem keeping_pure {f : Dataset → Dataset} (hf : ∀ d d', Shuffled d d' → Shuffled (f d) (f d') ∧ (f d).code = d.code) :
    Keeping (fun data => .ok (data.map f)) (fun data => .ok (data.map f)) := by
  intro data data' out h ho
  cases ho
  refine ⟨_, rfl, ⟨?_, ?_⟩⟩
  · have := h.each
    clear h
    induction this with
    | nil => exact .nil
    | cons h1 _ ih => exact .cons (hf _ _ h1).1 ih
  · rw [List.map_map]
    have : List.map ((fun x => x.code) ∘ f) data = data.map (·.code) := by
      apply List.map_congr_left
      intro a ha
      obtain ⟨a', -, hq⟩ := forall₂_mem_left h.each ha
      exact (hf a a' hq).2
    rw [this]
    exact h.nodup

theorem linked_of_code {e : Exchange} {c : String} (he : LinkedInput e) (hc : c ≠ "") : LinkedInput { e with code := some c } := ⟨he.1, hc⟩

theorem code_nonempty {data data' : List Dataset} (h : List.Forall₂ Shuffled data data') {d : Dataset} (hd : d ∈ data) {c : String} (hc : d.code = some c) : c ≠ "" := by
  obtain ⟨d', -, hq⟩ := forall₂_mem_left h hd
  have := hq.code
  rw [hc] at this
  exact this

theorem scaleExchange_linked {M : MathEnv} {f : ℚ} {e e' : Exchange} (he : LinkedInput e) (h : scaleExchange M e f = .ok e') : LinkedInput e' := by
  unfold scaleExchange at h
  obtain ⟨o, -, h2⟩ := bind_eq_ok.mp h
  cases h2
  exact he

/-! ## actualize_activity_links, link_recycled_content -/

theorem linkToOnly_rel {l l' : List Dataset} (h : List.Forall₂ Shuffled l l') (e : Exchange) : linkToOnly e l = linkToOnly e l' := by
  unfold linkToOnly
  cases h with
  | nil => rfl
  | cons h1 h2 =>
    cases h2 with
    | nil => simp only [h1.codeEq]
    | cons _ _ => rfl

theorem linkToOnly_linked {l l' : List Dataset} (h : List.Forall₂ Shuffled l l') {e e' : Exchange} (he : LinkedInput e) (hr : linkToOnly e l = .ok e') :
    LinkedInput e' := by
  unfold linkToOnly at hr
  split at hr
  · obtain ⟨c, h1, h2⟩ := bind_eq_ok.mp hr
    cases h2
    exact linked_of_code he (code_nonempty h (by simp) (getKey_eq_ok.mp h1))
  · cases hr; exact he

theorem makesProduct_rel {d d' : Dataset} (h : Shuffled d d') (n : String) : makesProduct n d' = makesProduct n d := by
  unfold makesProduct; rw [h.refProduct]

theorem actualizeLink_rel {data data' : List Dataset} (h : List.Forall₂ Shuffled data data') {e e' : Exchange} (hr : actualizeLink data e = .ok e') :
    actualizeLink data' e = .ok e' ∧ (LinkedInput e → LinkedInput e') := by
  unfold actualizeLink at hr ⊢
  split at hr
  · next h1 => cases hr; rw [if_pos h1]; exact ⟨rfl, fun h => h⟩
  · next h1 =>
    rw [if_neg h1]
    have hg : List.Forall₂ Shuffled (data.filter fun ds => decide (some ds.id = e.activityLink)) (data'.filter fun ds => decide (some ds.id = e.activityLink)) :=
      forall₂_filter h fun a b hab => by rw [hab.id]
    simp only at hr ⊢
    split at hr
    · cases hr
    · next h2 =>
      have h2' : (data'.filter fun ds => decide (some ds.id = e.activityLink)) ≠ [] := by
        intro h3
        rw [h3] at hg
        cases hg' : data.filter fun ds => decide (some ds.id = e.activityLink) with
        | nil => exact h2 hg'
        | cons _ _ => rw [hg'] at hg; cases hg
      rw [if_neg h2']
      obtain ⟨r, h4, h5⟩ := bind_eq_ok.mp hr
      obtain ⟨r', h4', h6⟩ := filterE_rel (f' := makesProduct e.name) hg h4 fun a a' haa b hb => by rw [makesProduct_rel haa]; exact hb
      refine ⟨bind_eq_ok.mpr ⟨r', h4', ?_⟩, fun he => linkToOnly_linked h6 he h5⟩
      rw [← linkToOnly_rel h6]; exact h5

theorem keeping_actualize : Keeping actualizeActivityLinks actualizeActivityLinks := by
  intro data data' out h ho
  unfold actualizeActivityLinks mapExchangesE at ho ⊢
  refine keeping_each (f' := fun ds => do let ex ← mapE (actualizeLink data') ds.exchanges; return { ds with exchanges := ex }) ?_ data data' out h ho
  intro d d' hd e he
  obtain ⟨ex, h1, h2⟩ := bind_eq_ok.mp he
  cases h2
  obtain ⟨ex', h3, h4⟩ := hd.mapExchanges (fun e e' hl hr => (actualizeLink_rel h.each hr).2 hl) h1
  exact ⟨_, bind_eq_ok.mpr ⟨ex', mapE_ok_weaken h3 fun a _ b hb => (actualizeLink_rel h.each hb).1, rfl⟩, h4, rfl⟩

theorem keeping_recycled : Keeping linkRecycledContent linkRecycledContent := by
  intro data data' out h ho
  unfold linkRecycledContent mapExchangesE at ho ⊢
  obtain ⟨rc, h1, h2⟩ := bind_eq_ok.mp ho
  obtain ⟨rc', h1', hrc⟩ := filterE_rel (f' := makesRecycledContent) h.each h1 fun a a' haa b hb => by
    unfold makesRecycledContent at hb ⊢; rw [haa.refProduct, haa.type]; exact hb
  have hex : ∀ e, List.Forall₂ Shuffled (rc.filter fun ds => ds.refProduct == some e) (rc'.filter fun ds => ds.refProduct == some e) := fun e =>
    forall₂_filter hrc fun a b hab => by rw [hab.refProduct]
  have key : ∀ e, linkRecycledInput rc e = linkRecycledInput rc' e := by
    intro e
    unfold linkRecycledInput
    split
    · exact linkToOnly_rel (hex e.name) e
    · rfl
  obtain ⟨out', h3, h4⟩ := keeping_each (f := fun ds => do let ex ← mapE (linkRecycledInput rc) ds.exchanges; return { ds with exchanges := ex })
    (f' := fun ds => do let ex ← mapE (linkRecycledInput rc') ds.exchanges; return { ds with exchanges := ex }) (by
      intro d d' hd e he
      obtain ⟨ex, h1, h2⟩ := bind_eq_ok.mp he
      cases h2
      obtain ⟨ex', h3, h4⟩ := hd.mapExchanges (fun e e' hl hr => by
        unfold linkRecycledInput at hr
        split at hr
        · exact linkToOnly_linked (hex e.name) hl hr
        · cases hr; exact hl) h1
      exact ⟨_, bind_eq_ok.mpr ⟨ex', mapE_ok_weaken h3 fun a _ b hb => by rw [← key]; exact hb, rfl⟩, h4, rfl⟩) data data' out h h2
  exact ⟨out', bind_eq_ok.mpr ⟨rc', h1', h3⟩, h4⟩

/-! ## The simple ones -/

theorem keeping_unlinked : Keeping (fun d => .ok (logAndDeleteUnlinked d)) (fun d => .ok (logAndDeleteUnlinked d)) := by
  refine keeping_pure ?_
  intro d d' h
  refine ⟨?_, rfl⟩
  obtain ⟨a, b, rfl⟩ := h.inv
  refine ⟨rfl, ?_, h.suppliers, h.codes, h.code⟩
  have : (d.code.getD "" != "") = true := by simpa using h.code
  exact h.exchanges.filter_true fun e _ => this

theorem addReferenceProductCode_ok {d e : Dataset} : addReferenceProductCode d = .ok e ↔ ∃ c rp, d.code = some c ∧ getSingleReferenceProduct d = .ok rp ∧
    e = { d with exchanges := d.exchanges.map fun e => if e.type = .referenceProduct then { e with code := some c } else e } := by
  unfold addReferenceProductCode
  constructor
  · intro h
    split at h
    · cases h
    · next c hc =>
      obtain ⟨rp, h1, h2⟩ := bind_eq_ok.mp h
      cases h2
      exact ⟨c, rp, hc, h1, rfl⟩
  · rintro ⟨c, rp, hc, h1, rfl⟩
    split
    · next h => rw [hc] at h; cases h
    · next c' h =>
      rw [hc] at h
      cases h
      exact bind_eq_ok.mpr ⟨rp, h1, rfl⟩

theorem keeping_refCodes : Keeping addReferenceProductCodes addReferenceProductCodes := by
  refine keeping_each ?_
  intro d d' h e he
  obtain ⟨c, rp, hc, h1, rfl⟩ := addReferenceProductCode_ok.mp he
  refine ⟨_, addReferenceProductCode_ok.mpr ⟨c, rp, h.codeEq.trans hc, h.single.trans h1, rfl⟩, h.mapPure ?_, rfl⟩
  intro x hx
  split
  · next ht => rw [hx.1] at ht; cases ht
  · exact hx

theorem keeping_deleteList : Keeping (fun d => .ok (deleteSuppliersList d)) (fun d => .ok (deleteSuppliersList d)) := by
  refine keeping_pure ?_
  intro d d' h
  refine ⟨?_, rfl⟩
  obtain ⟨a, b, rfl⟩ := h.inv
  exact ⟨rfl, h.exchanges, .none, fun l hl => (by cases hl), h.code⟩

theorem keeping_rename : Keeping (fun d => .ok (renameRecycledContentAfterLinking d)) (fun d => .ok (renameRecycledContentAfterLinking d)) := by
  refine keeping_pure ?_
  intro d d' h
  refine ⟨?_, rfl⟩
  have := h.mapPure (f := fun e => { e with name := stripRc e.name }) fun e he => he
  obtain ⟨a, b, rfl⟩ := h.inv
  exact ⟨rfl, this.exchanges, h.suppliers, h.codes, h.code⟩

theorem keeping_flip : Keeping flipNonAllocatableByproducts flipNonAllocatableByproducts := by
  refine keeping_each ?_
  intro d d' h e he
  obtain ⟨ex, h1, h2⟩ := bind_eq_ok.mp he
  cases h2
  obtain ⟨ex', h3, h4⟩ := h.mapExchanges (f := flipExchange) (fun e e' hl hr => by
    unfold flipExchange at hr
    rw [if_neg (by rw [hl.1]; decide)] at hr
    cases hr; exact hl) h1
  exact ⟨_, bind_eq_ok.mpr ⟨ex', h3, rfl⟩, h4, rfl⟩

theorem normalize_shuffled {M : MathEnv} {d d' e : Dataset} (h : Shuffled d d') (he : normalize M d = .ok e) :
    ∃ e', normalize M d' = .ok e' ∧ Shuffled e e' ∧ e.code = d.code := by
  unfold normalize at he ⊢
  rw [h.single]
  obtain ⟨rp, h1, h2⟩ := bind_eq_ok.mp he
  rw [h1, ebind_ok]
  split at h2
  · cases h2
  · next hz =>
    rw [if_neg hz]
    simp only at h2 ⊢
    split at h2
    · next hf =>
      obtain ⟨ex, h3, h4⟩ := bind_eq_ok.mp h2
      cases h4
      obtain ⟨ex', h5, h6⟩ := h.mapExchanges (fun e e' hl hr => scaleExchange_linked hl hr) h3
      rw [if_pos hf, h5]
      exact ⟨_, rfl, h6, rfl⟩
    · next hf =>
      cases h2
      rw [if_neg hf]
      exact ⟨_, rfl, h, rfl⟩

theorem wrapAll_normalize {M : MathEnv} {data out : List Dataset} : wrapAll (normalizeList M) data = .ok out ↔ mapE (normalize M) data = .ok out := by
  unfold wrapAll
  rw [flatMapE_ok_iff]
  constructor
  · rintro ⟨bs, h, rfl⟩
    induction data generalizing bs with
    | nil => cases h; rfl
    | cons a l ih =>
      obtain ⟨b, r1, h1, h2, rfl⟩ := mapE_cons_ok.mp h
      obtain ⟨d, h3, h4⟩ := bind_eq_ok.mp h1
      cases h4
      exact mapE_cons_ok.mpr ⟨d, _, h3, ih r1 h2, rfl⟩
  · intro h
    have flat : ∀ l : List Dataset, (l.map fun d => [d]).flatten = l := fun l => by induction l with | nil => rfl | cons a l ih => rw [List.map_cons, List.flatten_cons, ih]; rfl
    refine ⟨out.map fun d => [d], ?_, (flat out).symm⟩
    induction data generalizing out with
    | nil => cases h; rfl
    | cons a l ih =>
      obtain ⟨b, r1, h1, h2, rfl⟩ := mapE_cons_ok.mp h
      exact mapE_cons_ok.mpr ⟨[b], _, by unfold normalizeList; rw [h1]; rfl, ih h2, rfl⟩

theorem keeping_normalize (M : MathEnv) : Keeping (wrapAll (normalizeList M)) (wrapAll (normalizeList M)) := by
  intro data data' out h ho
  obtain ⟨out', h1, h2⟩ := keeping_each (fun d d' hd e he => normalize_shuffled hd he) data data' out h (wrapAll_normalize.mp ho)
  exact ⟨out', wrapAll_normalize.mpr h1, h2⟩

theorem keeping_signs (M : MathEnv) : Keeping (adjustMarketSignsAll M) (adjustMarketSignsAll M) := by
  refine keeping_each ?_
  intro d d' h e he
  unfold adjustMarketSigns at he ⊢
  have hall : (d'.exchanges.all fun e => decide (e.amount ≤ 0)) = d.exchanges.all fun e => decide (e.amount ≤ 0) := by
    have hp := h.exchanges.perm
    simp only [List.map_id] at hp
    rw [Bool.eq_iff_iff, List.all_eq_true, List.all_eq_true]
    exact ⟨fun hx a ha => hx a (hp.mem_iff.mp ha), fun hx a ha => hx a (hp.mem_iff.mpr ha)⟩
  split at he
  · next ht =>
    rw [if_pos (h.type.trans ht)]
    obtain ⟨rp, h1, h2⟩ := bind_eq_ok.mp he
    obtain ⟨cls, h3, h4⟩ := bind_eq_ok.mp h2
    rw [h.single, h1, ebind_ok, h3, ebind_ok]
    simp only [hall]
    split at h4
    · next hc =>
      rw [if_pos hc]
      obtain ⟨ex, h5, h6⟩ := bind_eq_ok.mp h4
      cases h6
      obtain ⟨ex', h7, h8⟩ := h.mapExchanges (fun e e' hl hr => scaleExchange_linked hl hr) h5
      rw [h7]
      exact ⟨_, rfl, h8, rfl⟩
    · next hc =>
      rw [if_neg hc]
      split at h4
      · next hc2 =>
        rw [if_pos hc2]
        obtain ⟨ex, h5, h6⟩ := bind_eq_ok.mp h4
        cases h6
        obtain ⟨ex', h7, h8⟩ := h.mapExchanges (fun e e' hl hr => by
          split at hr
          · exact scaleExchange_linked hl hr
          · cases hr; exact hl) h5
        rw [h7]
        exact ⟨_, rfl, h8, rfl⟩
      · next hc2 =>
        rw [if_neg hc2]
        cases h4
        exact ⟨_, rfl, h, rfl⟩
  · next ht =>
    cases he
    rw [if_neg (by rw [h.type]; exact ht)]
    exact ⟨_, rfl, h, rfl⟩

end Ocelot
