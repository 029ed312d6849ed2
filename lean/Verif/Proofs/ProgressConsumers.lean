import Verif.Proofs.ProgressGroups
import Verif.Proofs.OrderConsumers

/-! # Linking the consumers, and the functions after it, succeed -/

namespace Ocelot
open Spec

namespace Progress

variable {b : Bool}

theorem containsWrapper_total {T : Topology} (hT : WellFormed T) {c s : String} {found : List String} (hc : Spec.Known T c) (hs : Spec.Known T s)
    (hf : ∀ x ∈ found, Spec.Known T x) (crow srow : Option (Finset ℕ)) : ∃ b, containsWrapper T c s found crow srow = .ok b := by
  unfold containsWrapper
  refine contains_total hT ?_ ?_ hf _
  · rintro _ ⟨⟩; exact hc
  · intro x hx
    split at hx
    · cases hx
    · cases hx; exact hs

theorem insideLoop_total {T : Topology} (hT : WellFormed T) {crow srow : Option (Finset ℕ)} {loc : String} {ordered : List String}
    (hloc : Spec.Known T loc) (ho : ∀ s ∈ ordered, Spec.Known T s) :
    ∃ found, foldE (insideStep T loc crow srow) [] ordered = .ok found ∧ (∀ s ∈ found, s ∈ ordered) := by
  have hstep : ∀ (pre : List String) a post (s : List String), ordered = pre ++ a :: post → (∀ x ∈ s, x ∈ ordered) → ∃ s', insideStep T loc crow srow s a = .ok s' ∧ ∀ x ∈ s', x ∈ ordered := by
    intro pre a post s hl hs
    have ha : a ∈ ordered := by rw [hl]; simp
    unfold insideStep
    obtain ⟨b, hb⟩ := containsWrapper_total hT (found := s) hloc (ho a ha) (fun x hx => ho x (hs x hx)) crow srow
    rw [hb, ebind_ok]
    refine ⟨_, rfl, ?_⟩
    intro x hx
    split at hx
    · rcases List.mem_append.mp hx with hx | hx
      · exact hs x hx
      · rw [List.mem_singleton] at hx; rw [hx]; exact ha
    · exact hs x hx
  obtain ⟨found, hfound⟩ := foldE_progress (f := insideStep T loc crow srow) (I := fun _ s => ∀ x ∈ s, x ∈ ordered) (l := ordered) hstep (s := []) (by simp)
  refine ⟨found, hfound, ?_⟩
  refine foldE_inv' (I := fun _ s => ∀ x ∈ s, x ∈ ordered) (s := []) hfound (by simp) ?_
  intro pre a post s s' hl hI hs
  obtain ⟨s'', h1, h2⟩ := hstep pre a post s hl hI
  rw [h1] at hs
  cases hs
  exact h2

theorem firstAround_total {T : Topology} (hT : WellFormed T) {crow srow : Option (Finset ℕ)} {loc : String} (hloc : Spec.Known T loc) {l : List String}
    (hl : ∀ s ∈ l, Spec.Known T s) : ∃ r, firstAround T loc crow srow l = .ok r ∧ ∀ s ∈ r, s ∈ l := by
  induction l with
  | nil => exact ⟨[], rfl, by simp⟩
  | cons a l ih =>
    unfold firstAround
    obtain ⟨b, hb⟩ := containsWrapper_total hT (c := a) (s := loc) (found := []) (hl a (by simp)) hloc (by simp) srow crow
    rw [hb, ebind_ok]
    obtain ⟨r, hr, hm⟩ := ih fun s hs => hl s (by simp [hs])
    split
    · exact ⟨_, rfl, by simp⟩
    · exact ⟨r, hr, fun s hs => by simp [hm s hs]⟩

theorem chooseMarkets_total {T : Topology} (hT : WellFormed T) (hg : ∃ g, HasFaces T "GLO" g) {loc : String} (hloc : Spec.Known T loc) (crow : Option (Finset ℕ))
    {candidates : List Dataset} (hk : ∀ d ∈ candidates, Spec.Known T d.location) :
    ∃ chosen, chooseMarkets T loc crow candidates = .ok chosen ∧ ∀ d ∈ chosen, d ∈ candidates := by
  set ms := candidates.filter fun d => d.type == .market with hms
  set gs := candidates.filter fun d => d.type == .marketGroup with hgs
  unfold chooseMarkets
  simp only [← hms, ← hgs]
  obtain ⟨row, hrow⟩ := marketsRow_total hT hg (m := byLocation ms) (byLocation_known hk)
  rw [hrow, ebind_ok]
  have hall : ∀ s ∈ (byLocation ms).map (·.1) ++ (byLocation gs).map (·.1), Spec.Known T s := by
    intro s hs
    rcases List.mem_append.mp hs with hs | hs
    · exact byLocation_known hk s hs
    · exact byLocation_known hk s hs
  obtain ⟨ordered, hord⟩ := C36_total T hT _ (some row) hall
  rw [hord, ebind_ok]
  obtain ⟨-, hmem, -⟩ := C36_order T hT _ (some row) ordered hord
  have ho : ∀ s ∈ ordered, Spec.Known T s := fun s hs => hall s ((hmem s).mp hs)
  obtain ⟨found, hfound, hfm⟩ := insideLoop_total hT (crow := crow) (srow := some row) (ordered := ordered) hloc ho
  rw [hfound, ebind_ok]
  have haround : ∃ found', orAround T loc crow (some row) ordered found = .ok found' ∧ ∀ s ∈ found', s ∈ ordered := by
    unfold orAround
    split
    · obtain ⟨r, hr, hm⟩ := firstAround_total hT (crow := crow) (srow := some row) (loc := loc) (l := ordered.reverse) hloc fun s hs => ho s (List.mem_reverse.mp hs)
      exact ⟨r, hr, fun s hs => List.mem_reverse.mp (hm s hs)⟩
    · exact ⟨found, rfl, hfm⟩
  obtain ⟨found', hf', hfm'⟩ := haround
  rw [hf', ebind_ok]
  obtain ⟨chosen, hchosen⟩ := mapE_ok_of_forall (f := candidateAt (byLocation ms) (byLocation gs)) (l := found') fun s hs => candidateAt_total ((hmem s).mp (hfm' s hs))
  refine ⟨chosen, hchosen, ?_⟩
  intro d hd
  obtain ⟨s, -, hs⟩ := mapE_mem hchosen hd
  rcases candidateAt_mem hs with h | h
  · exact (List.mem_filter.mp h).1
  · exact (List.mem_filter.mp h).1

theorem consumerRow_total {T : Topology} (hT : WellFormed T) (hg : ∃ g, HasFaces T "GLO" g) {data : List Dataset} (h : Inv b T data) {d : Dataset} (hd : d ∈ data)
    (ht : d.type ≠ .marketGroup) : ∃ row, consumerRow T data d = .ok row := by
  unfold consumerRow
  split
  · have hpeer : peerType d = d.type := by
      unfold peerType
      rcases h.db.kinds (sig d) (List.mem_map.mpr ⟨d, hd, rfl⟩) with hk | hk | hk
      · have hk' : d.type = .transforming := hk
        rw [if_pos hk']; exact hk'.symm
      · have hk' : d.type = .market := hk
        rw [hk']; decide
      · exact absurd hk ht
    have hne : (data.filter fun x => x.type == peerType d && x.name == d.name) ≠ [] := List.ne_nil_of_mem (List.mem_filter.mpr ⟨hd, by rw [hpeer]; simp⟩)
    simp only [if_neg hne]
    obtain ⟨r, hr⟩ := resolveRow_total hT hg (l := (data.filter fun x => x.type == peerType d && x.name == d.name).map (·.location)) (by simpa using hne) (by
      intro s hs
      obtain ⟨x, hx, rfl⟩ := List.mem_map.mp hs
      exact h.known (List.mem_filter.mp hx).1)
    rw [hr]
    exact ⟨_, rfl⟩
  · exact ⟨_, rfl⟩

/-- What every exchange needs after linking. -/
structure Sound (b : Bool) (e : Exchange) : Prop where
  steady : Steady e.toNumObj
  bent : e.type = .byproduct → Bendable b e.toNumObj
  cls : e.type = .byproduct → e.cls ≠ none

theorem splitInput_total {M : MathEnv} {e : Exchange} (he : Steady e.toNumObj) {chosen : List Dataset} (hc : ∀ d ∈ chosen, d.code.isSome) {ex : List (Option ℕ × Exchange)}
    (hex : ∀ p ∈ ex, Sound b p.2) : ∃ ex', splitInput M e (chosen.map (consumerEntry e)) ex = .ok ex' ∧ ∀ p ∈ ex', Sound b p.2 := by
  unfold splitInput
  have hpv : ∀ s ∈ chosen.map (consumerEntry e), s.pv.isSome := by
    intro s hs
    obtain ⟨d, -, rfl⟩ := List.mem_map.mp hs
    rfl
  rw [entryVolume_all hpv, ebind_ok]
  split
  · exact ⟨ex, rfl, hex⟩
  · have hone : ∀ s ∈ chosen.map (consumerEntry e), ∃ l, inputShare M e ((chosen.map (consumerEntry e)).map vol).sum s = .ok l ∧ ∀ n ∈ l, Sound b n := by
      intro s hs
      obtain ⟨d, hd, rfl⟩ := List.mem_map.mp hs
      obtain ⟨c, hcode⟩ := Option.isSome_iff_exists.mp (hc d hd)
      unfold inputShare consumerEntry annotateExchange
      rw [hcode]
      simp only [getKey_some, ebind_ok, epure, Option.orElse_some]
      split
      · exact ⟨[], rfl, by simp⟩
      · obtain ⟨e', h1, h2⟩ := scaleExchange_steady M he ((productionVolume d).getD 0 / ((chosen.map fun d => (consumerEntry e d)).map vol).sum)
        unfold consumerEntry annotateExchange at h1
        rw [h1]
        refine ⟨_, rfl, ?_⟩
        intro n hn
        rw [List.mem_singleton] at hn
        rw [hn]
        exact ⟨h2, (by intro h; cases h), (by intro h; cases h)⟩
    obtain ⟨bs, hbs⟩ := mapE_ok_of_forall fun s hs => ⟨_, (hone s hs).choose_spec.1⟩
    have hnew := flatMapE_ok_iff.mpr ⟨bs, hbs, rfl⟩
    rw [hnew, ebind_ok]
    refine ⟨_, rfl, ?_⟩
    intro p hp
    obtain ⟨hp, -⟩ := List.mem_filter.mp hp
    rcases List.mem_append.mp hp with hp | hp
    · exact hex p hp
    · obtain ⟨n, hn, rfl⟩ := List.mem_map.mp hp
      obtain ⟨s, hs, l, hl, hnl⟩ := flatMapE_mem hnew hn
      obtain ⟨l', hl', hq⟩ := hone s hs
      rw [hl'] at hl
      cases hl
      exact hq n hnl

theorem linkInput_total {M : MathEnv} {T : Topology} (hT : WellFormed T) (hg : ∃ g, HasFaces T "GLO" g) {data : List Dataset} (h : Inv b T data) {loc : String}
    (hloc : Spec.Known T loc) (crow : Option (Finset ℕ)) {st : LinkState} (hst : ∀ p ∈ st.exchanges, Sound b p.2) {p : Exchange × ℕ} (hp : Steady p.1.toNumObj)
    (hs : Sold (data.map sig) p.1.name) : ∃ st', linkInput M T data loc crow st p = .ok st' ∧ ∀ p ∈ st'.exchanges, Sound b p.2 := by
  unfold linkInput
  have hm : marketsMapping data p.1.name ≠ [] := by
    obtain ⟨s, hs, ht, hn⟩ := hs
    obtain ⟨d, hd, rfl⟩ := List.mem_map.mp hs
    obtain ⟨x, hx⟩ := Option.isSome_iff_exists.mp (h.productCode hd).1
    refine List.ne_nil_of_mem (a := d) (List.mem_filter.mpr ⟨hd, ?_⟩)
    simp only [sig] at ht hn
    rw [hx] at hn ⊢
    rw [← hn]
    rcases ht with ht | ht <;> simp [ht]
  have hcand : candidatesFor data st.candidates p.1.name = .ok (marketsMapping data p.1.name) := by
    unfold candidatesFor; rw [if_pos hm]
  rw [hcand, ebind_ok]
  have hmem : ∀ d ∈ marketsMapping data p.1.name, d ∈ data := fun d hd => (List.mem_filter.mp hd).1
  obtain ⟨chosen, hchosen, hcm⟩ := chooseMarkets_total hT hg hloc crow (candidates := marketsMapping data p.1.name) fun d hd => h.known (hmem d hd)
  rw [hchosen, ebind_ok]
  have hcode : ∀ d ∈ chosen, d.code.isSome := fun d hd => (h.productCode (hmem d (hcm d hd))).2
  unfold useMarkets
  split
  · exact ⟨_, rfl, hst⟩
  · next obj =>
    obtain ⟨c, hc⟩ := Option.isSome_iff_exists.mp (hcode obj (by simp))
    rw [hc, getKey_some, ebind_ok]
    refine ⟨_, rfl, ?_⟩
    intro q hq
    obtain ⟨q', hq', rfl⟩ := List.mem_map.mp hq
    have := hst q' hq'
    unfold setCodeAt
    split
    · exact ⟨this.steady, this.bent, this.cls⟩
    · exact this
  · next a b l =>
    obtain ⟨ex', h1, h2⟩ := splitInput_total (M := M) hp hcode hst
    rw [h1, ebind_ok]
    exact ⟨_, rfl, h2⟩

theorem linkConsumer_total {M : MathEnv} {T : Topology} (hT : WellFormed T) (hg : ∃ g, HasFaces T "GLO" g) {data : List Dataset} (h : Inv b T data)
    (cand : Option (List Dataset)) {d : Dataset} (hd : d ∈ data) :
    ∃ p, linkConsumer M T data cand d = .ok p ∧ ∀ e ∈ p.2.exchanges, Sound b e := by
  have hf := h.fine d hd
  have hsound : ∀ e ∈ d.exchanges, Sound b e := fun e he => ⟨(hf.steady e he).1, (hf.steady e he).2, hf.classified e he⟩
  unfold linkConsumer
  split
  · exact ⟨_, rfl, hsound⟩
  · next ht =>
    obtain ⟨crow, hc⟩ := consumerRow_total hT hg h hd ht
    rw [hc, ebind_ok]
    let I : List (Exchange × ℕ) → LinkState → Prop := fun _ st => ∀ p ∈ st.exchanges, Sound b p.2
    have h0 : I [] { candidates := cand, exchanges := d.exchanges.zipIdx.map fun p => (some p.2, p.1), suppliers := d.suppliers } := by
      intro p hp
      obtain ⟨q, hq, rfl⟩ := List.mem_map.mp hp
      exact hsound q.1 (List.mem_of_getElem? (List.mem_zipIdx_iff_getElem?.mp hq))
    have hstep : ∀ (pre : List (Exchange × ℕ)) a post s, (d.exchanges.zipIdx.filter fun p => isUnlinked p.1) = pre ++ a :: post → I pre s →
        ∃ s', linkInput M T data d.location crow s a = .ok s' ∧ I (pre ++ [a]) s' := by
      intro pre a post s hl hI
      have ha : a ∈ d.exchanges.zipIdx.filter fun p => isUnlinked p.1 := by rw [hl]; simp
      obtain ⟨ha, hu⟩ := List.mem_filter.mp ha
      have hae : a.1 ∈ d.exchanges := List.mem_of_getElem? (List.mem_zipIdx_iff_getElem?.mp ha)
      exact linkInput_total hT hg h (h.known hd) crow hI (hsound a.1 hae).steady (hf.sold ht a.1 hae hu)
    obtain ⟨st, hst⟩ := foldE_progress (I := I) hstep h0
    have hfin : I (d.exchanges.zipIdx.filter fun p => isUnlinked p.1) st := by
      refine foldE_inv' (I := I) hst h0 ?_
      intro pre a post s s' hl hI hs
      obtain ⟨s'', h1, h2⟩ := hstep pre a post s hl hI
      rw [h1] at hs
      cases hs
      exact h2
    rw [hst, ebind_ok]
    refine ⟨_, rfl, ?_⟩
    intro e he
    obtain ⟨p, hp, rfl⟩ := List.mem_map.mp he
    exact hfin p hp

theorem scanE_total {σ α β : Type} {f : σ → α → Except Err (σ × β)} {R : α → β → Prop} {l : List α} (h : ∀ a ∈ l, ∀ s, ∃ p, f s a = .ok p ∧ R a p.2) (s : σ) :
    ∃ r, scanE f s l = .ok r ∧ List.Forall₂ R l r := by
  induction l generalizing s with
  | nil => exact ⟨[], rfl, .nil⟩
  | cons a l ih =>
    obtain ⟨p, h1, h2⟩ := h a (by simp) s
    obtain ⟨r, h3, h4⟩ := ih (fun a ha => h a (by simp [ha])) p.1
    unfold scanE
    rw [h1, ebind_ok, h3, ebind_ok]
    exact ⟨_, rfl, .cons h2 h4⟩

theorem Inv.linkable {T : Topology} {data : List Dataset} (h : Inv b T data) : Linkable data := by
  constructor
  · intro d hd _
    obtain ⟨c, hc, hne⟩ := (h.fine d hd).code
    rw [hc]
    exact ⟨rfl, fun hh => hne (Option.some.inj hh)⟩
  · intro ds hds ht e he hn _
    obtain ⟨s, hs, hk, hp⟩ := (h.fine ds hds).sold ht e he (isUnlinked_iff.mpr hn)
    obtain ⟨d, hd, rfl⟩ := List.mem_map.mp hs
    obtain ⟨x, hx⟩ := Option.isSome_iff_exists.mp (h.productCode hd).1
    refine ⟨d, hd, hk, ?_⟩
    simp only [sig] at hp
    rw [hx] at hp ⊢
    exact congrArg some hp

theorem total_linkConsumers {M : MathEnv} {T : Topology} (hT : WellFormed T) (hg : ∃ g, HasFaces T "GLO" g) {data : List Dataset} (h : Inv b T data) :
    ∃ out, linkConsumersToMarkets M T data = .ok out ∧ ∀ d ∈ out, Fine b (fun _ => True) d := by
  unfold linkConsumersToMarkets
  obtain ⟨w, hw⟩ := withRef_total (l := data.filter fun d => d.type == .market || d.type == .marketGroup) fun d hd => (h.productCode (List.mem_filter.mp hd).1).1
  obtain ⟨out, h1, h2⟩ := scanE_total (f := linkConsumer M T data) (R := fun _ d' => ∀ e ∈ d'.exchanges, Sound b e) (l := data) (fun d hd s => linkConsumer_total hT hg h s hd) none
  have hrun : linkConsumersToMarkets M T data = .ok out := by
    unfold linkConsumersToMarkets
    rw [hw, ebind_ok, h1]
  refine ⟨out, by rw [hw, ebind_ok, h1], ?_⟩
  have hF := linkConsumers_relinked h.linkable hrun
  intro d' hd'
  obtain ⟨i, hi⟩ := List.getElem?_of_mem hd'
  obtain ⟨d, hd, hdata, hgr, hng⟩ := forall₂_mem_right hF hd'
  have hf := h.fine d hdata
  have hs : ∀ e ∈ d'.exchanges, Sound b e := by
    obtain ⟨_, -, hs⟩ := forall₂_mem_right h2 hd'
    exact hs
  by_cases ht : d.type = .marketGroup
  · rw [hgr ht]
    exact ⟨hf.ref, hf.classified, hf.steady, hf.code, fun _ _ _ _ => trivial, hf.sup⟩
  · obtain ⟨crow, -, hrel⟩ := hng ht
    have hrefs := relinked_refs hrel
    obtain ⟨results, -, hd'', hsup⟩ := hrel
    have htype : d'.type = d.type := by rw [hd'']
    have hprod : d'.refProduct = d.refProduct := by rw [hd'']
    have hcode : d'.code = d.code := by rw [hd'']
    refine ⟨?_, fun e he => (hs e he).cls, fun e he => ⟨(hs e he).steady, (hs e he).bent⟩, ?_, fun _ _ _ _ => trivial, ?_⟩
    · rw [hrefs, htype, hprod]; exact hf.ref
    · rw [hcode]; exact hf.code
    · rcases hsup with hx | hx
      · rw [hx]; exact hf.sup
      · rw [hx]; intro l hl; cases hl

/-! ## The end -/

theorem total_referenceCodes {data : List Dataset} (h : ∀ d ∈ data, Fine b (fun _ => True) d) :
    ∃ out, addReferenceProductCodes data = .ok out ∧ ∀ d ∈ out, Fine b (fun _ => True) d := by
  have hone : ∀ d ∈ data, ∃ d', addReferenceProductCode d = .ok d' ∧ Next d d' := by
    intro d hd
    obtain ⟨c, hc, hne⟩ := (h d hd).code
    obtain ⟨r, hr, -⟩ := (h d hd).ref
    have heq : addReferenceProductCode d = .ok { d with exchanges := d.exchanges.map fun e => if e.type = .referenceProduct then { e with code := some c } else e } := by
      unfold addReferenceProductCode
      split
      · next h => rw [hc] at h; cases h
      · next c' h =>
        rw [hc] at h
        cases h
        rw [getSingle_ok.mpr hr]
        rfl
    refine ⟨_, heq, rfl, rfl, rfl, fun _ S hS => hS.touch (sup := d.suppliers) ?_ hS.sup⟩
    rw [List.forall₂_map_right_iff]
    refine List.forall₂_same.mpr fun e _ => ?_
    split
    · exact ⟨rfl, rfl, rfl, rfl, id, .inr hne⟩
    · exact .refl e
  obtain ⟨out, hout⟩ := mapE_ok_of_forall fun d hd => ⟨_, (hone d hd).choose_spec.1⟩
  refine ⟨out, hout, ?_⟩
  intro d' hd'
  obtain ⟨d, hd, hdd⟩ := mapE_mem hout hd'
  obtain ⟨d'', h1, h2⟩ := hone d hd
  rw [h1] at hdd
  cases hdd
  exact h2.fine _ _ (h d hd)

theorem logAndDelete_id {data : List Dataset} (h : ∀ d ∈ data, Fine b (fun _ => True) d) : logAndDeleteUnlinked data = data := by
  unfold logAndDeleteUnlinked
  conv_rhs => rw [← List.map_id data]
  apply List.map_congr_left
  intro d hd
  obtain ⟨c, hc, hne⟩ := (h d hd).code
  have : (d.exchanges.filter fun _ => d.code.getD "" != "") = d.exchanges := by
    rw [List.filter_eq_self]
    intro e _
    rw [hc]
    simpa using hne
  rw [this]
  rfl

/-- What the last functions need of a dataset. -/
structure Ended (d : Dataset) : Prop where
  ref : ∃ r, refs d = [r] ∧ r.amount ≠ 0 ∧ (d.type = .market → r.cls ≠ none)
  sound : ∀ e ∈ d.exchanges, Sound true e

theorem ended_rename {d : Dataset} (h : Ended d) : Ended { d with exchanges := d.exchanges.map fun e => { e with name := stripRc e.name }, refProduct := d.refProduct.map stripRc } := by
  obtain ⟨r, hr, h1, h2⟩ := h.ref
  refine ⟨⟨{ r with name := stripRc r.name }, ?_, h1, h2⟩, ?_⟩
  · have : refs { d with exchanges := d.exchanges.map fun e => { e with name := stripRc e.name }, refProduct := d.refProduct.map stripRc } = (refs d).map fun e => { e with name := stripRc e.name } := by
      unfold refs
      rw [List.filter_map]
      rfl
    rw [this, hr]
    rfl
  · intro e he
    obtain ⟨e', he', rfl⟩ := List.mem_map.mp he
    have := h.sound e' he'
    exact ⟨this.steady, this.bent, this.cls⟩

/-- What normalisation and the adjustment of signs need. -/
structure Scalable (d : Dataset) : Prop where
  ref : ∃ r, refs d = [r] ∧ r.amount ≠ 0 ∧ (d.type = .market → r.cls ≠ none)
  steady : ∀ e ∈ d.exchanges, Steady e.toNumObj

theorem flip_total {d : Dataset} (h : Ended d) : ∃ ex, mapE flipExchange d.exchanges = .ok ex ∧ Scalable { d with exchanges := ex } := by
  have hone : ∀ e ∈ d.exchanges, ∃ e', flipExchange e = .ok e' ∧ Steady e'.toNumObj ∧ (e.type = .referenceProduct → e' = e) ∧ (e'.type == .referenceProduct) = (e.type == .referenceProduct) := by
    intro e he
    have hs := h.sound e he
    unfold flipExchange
    split
    · next hb =>
      split
      · next hc => exact absurd hc (hs.cls hb)
      · exact ⟨e, rfl, hs.steady, fun _ => rfl, rfl⟩
      · refine ⟨_, rfl, ?_, fun hr => (by rw [hb] at hr; cases hr), by rw [hb]; rfl⟩
        exact steady_neg hs.steady (hs.bent hb rfl) _
    · exact ⟨e, rfl, hs.steady, fun _ => rfl, rfl⟩
  obtain ⟨ex, hex⟩ := mapE_ok_of_forall fun e he => ⟨_, (hone e he).choose_spec.1⟩
  refine ⟨ex, hex, ?_, ?_⟩
  · have hrefs : refs { d with exchanges := ex } = refs d := by
      unfold refs
      refine (forall₂_filter_eq (forall₂_with_mem (mapE_ok_iff.mp hex)) ?_ ?_)
      · rintro a b ⟨ha, hab⟩
        obtain ⟨b', h1, -, -, h2⟩ := hone a ha
        rw [h1] at hab
        cases hab
        exact h2.symm
      · rintro a b ⟨ha, hab⟩ hp
        obtain ⟨b', h1, -, h2, -⟩ := hone a ha
        rw [h1] at hab
        cases hab
        exact h2 (by simpa using hp)
    rw [hrefs]
    exact h.ref
  · intro e' he'
    obtain ⟨e, he, hee⟩ := mapE_mem hex he'
    obtain ⟨e'', h1, h2, -⟩ := hone e he
    rw [h1] at hee
    cases hee
    exact h2

theorem scaleAll_scalable {M : MathEnv} {d : Dataset} (h : Scalable d) {f : ℚ} (hf : f ≠ 0) :
    ∃ ex, mapE (fun e => scaleExchange M e f) d.exchanges = .ok ex ∧ Scalable { d with exchanges := ex } := by
  have hone : ∀ e ∈ d.exchanges, ∃ e', scaleExchange M e f = .ok e' ∧ Steady e'.toNumObj := fun e he => scaleExchange_steady M (h.steady e he) f
  obtain ⟨ex, hex⟩ := mapE_ok_of_forall fun e he => ⟨_, (hone e he).choose_spec.1⟩
  refine ⟨ex, hex, ?_, ?_⟩
  · obtain ⟨r, hr, h1, h2⟩ := h.ref
    have hF : List.Forall₂ (fun e e' => scaleExchange M e f = .ok e') (refs d) (refs { d with exchanges := ex }) := by
      refine forall₂_filter_rel (mapE_ok_iff.mp hex) ?_
      intro a b hab
      rw [(scaleExchange_scaled hab).type]
    rw [hr] at hF
    obtain ⟨r', hr'⟩ : ∃ r', refs { d with exchanges := ex } = [r'] ∧ scaleExchange M r f = .ok r' := by
      rcases hx : refs { d with exchanges := ex } with _ | ⟨a, _ | ⟨b, l⟩⟩
      · rw [hx] at hF; cases hF
      · rw [hx] at hF
        cases hF with
        | cons hab _ => exact ⟨a, rfl, hab⟩
      · rw [hx] at hF
        cases hF with
        | cons _ h => cases h
    have hsc := scaleExchange_scaled hr'.2
    refine ⟨r', hr'.1, ?_, ?_⟩
    · rw [hsc.amount]; exact mul_ne_zero h1 hf
    · rw [hsc.cls]; exact h2
  · intro e' he'
    obtain ⟨e, he, hee⟩ := mapE_mem hex he'
    obtain ⟨e'', h1, h2⟩ := hone e he
    rw [h1] at hee
    cases hee
    exact h2

theorem normalize_total {M : MathEnv} {d : Dataset} (h : Scalable d) : ∃ d', normalize M d = .ok d' ∧ Scalable d' := by
  obtain ⟨r, hr, h1, h2⟩ := h.ref
  unfold normalize
  rw [getSingle_ok.mpr hr, ebind_ok]
  simp only [if_neg h1]
  split
  · obtain ⟨ex, hex, hs⟩ := scaleAll_scalable (M := M) h (f := 1 / |r.amount|) (one_div_ne_zero (abs_ne_zero.mpr h1))
    rw [hex]
    exact ⟨_, rfl, hs⟩
  · exact ⟨d, rfl, h⟩

theorem adjustSigns_total {M : MathEnv} {d : Dataset} (h : Scalable d) : ∃ d', adjustMarketSigns M d = .ok d' := by
  obtain ⟨r, hr, h1, h2⟩ := h.ref
  unfold adjustMarketSigns
  split
  · next hm =>
    obtain ⟨c, hc⟩ := Option.ne_none_iff_exists'.mp (h2 hm)
    rw [getSingle_ok.mpr hr, ebind_ok, hc, getKey_some, ebind_ok]
    split
    · obtain ⟨ex, hex⟩ := mapE_ok_of_forall (f := fun e => scaleExchange M e (-1)) (l := d.exchanges) fun e he => by
        obtain ⟨e', he', -⟩ := scaleExchange_steady M (h.steady e he) (-1)
        exact ⟨e', he'⟩
      rw [hex]
      exact ⟨_, rfl⟩
    · split
      · obtain ⟨ex, hex⟩ := mapE_ok_of_forall (f := fun e => if e.name = r.name then scaleExchange M e (-1) else .ok e) (l := d.exchanges) fun e he => by
          split
          · obtain ⟨e', he', -⟩ := scaleExchange_steady M (h.steady e he) (-1)
            exact ⟨e', he'⟩
          · exact ⟨e, rfl⟩
        rw [hex]
        exact ⟨_, rfl⟩
      · exact ⟨d, rfl⟩
  · exact ⟨d, rfl⟩

end Progress
end Ocelot
