import Verif.Proofs.ShuffleLinks

/-! `link_consumers_to_markets` with suppliers and linked inputs in another order. -/

namespace Ocelot
open Spec

theorem Shuf.strengthen {α : Type} {S T : α → Prop} {g : α → Exchange} {l l' : List α} (h : Shuf S g l l') (h1 : ∀ a ∈ l, S a → T a) (h2 : ∀ a ∈ l', S a → T a) :
    Shuf T g l l' := by
  induction h with
  | nil => exact .nil
  | same a _ ih => exact .same a (ih (fun x hx => h1 x (by simp [hx])) fun x hx => h2 x (by simp [hx]))
  | block h3 h4 hp _ ih =>
    exact .block (fun x hx => h1 x (by simp [hx]) (h3 x hx)) (fun x hx => h2 x (by simp [hx]) (h4 x hx)) hp
      (ih (fun x hx => h1 x (by simp [hx])) fun x hx => h2 x (by simp [hx]))

/-- An exchange with its position. -/
def placed (p : Exchange × ℕ) : Option ℕ × Exchange := (some p.2, p.1)

theorem unlinked_false {e : Exchange} (h : LinkedInput e) : isUnlinked e = false := by
  unfold isUnlinked
  rw [Bool.and_eq_false_iff]
  right
  simpa using h.2

theorem shuf_placed {l l' : List Exchange} (h : ShufE l l') (k : ℕ) :
    Shuf (fun p : Option ℕ × Exchange => LinkedInput p.2) (·.2) ((l.zipIdx k).map placed) ((l'.zipIdx k).map placed) ∧
    (l.zipIdx k).filter (fun p => isUnlinked p.1) = (l'.zipIdx k).filter fun p => isUnlinked p.1 := by
  induction h generalizing k with
  | nil => exact ⟨.nil, rfl⟩
  | same a _ ih =>
    obtain ⟨h1, h2⟩ := ih (k + 1)
    refine ⟨.same _ h1, ?_⟩
    rw [List.zipIdx_cons, List.zipIdx_cons, List.filter_cons, List.filter_cons, h2]
  | @block s s' l l' h1 h2 hp _ ih =>
    have hlen : s.length = s'.length := by simpa using hp.length_eq
    rw [List.zipIdx_append, List.zipIdx_append, ← hlen]
    obtain ⟨h3, h4⟩ := ih (k + s.length)
    have hm : ∀ t : List Exchange, ((t.zipIdx k).map placed).map (·.2) = t := by
      intro t
      rw [List.map_map]
      exact List.zipIdx_map_fst k t
    have hS : ∀ t : List Exchange, (∀ a ∈ t, LinkedInput a) → ∀ p ∈ (t.zipIdx k).map placed, LinkedInput p.2 := by
      intro t ht p hpm
      obtain ⟨q, hq, rfl⟩ := List.mem_map.mp hpm
      exact ht _ (List.fst_mem_of_mem_zipIdx hq)
    refine ⟨?_, ?_⟩
    · rw [List.map_append, List.map_append]
      refine .block (hS s h1) (hS s' h2) ?_ h3
      rw [hm, hm]
      simpa using hp
    · have hz : ∀ t : List Exchange, (∀ a ∈ t, LinkedInput a) → (t.zipIdx k).filter (fun p => isUnlinked p.1) = [] := by
        intro t ht
        rw [List.filter_eq_nil_iff]
        intro q hq
        rw [unlinked_false (ht _ (List.fst_mem_of_mem_zipIdx hq))]
        simp
      rw [List.filter_append, List.filter_append, hz s h1, hz s' h2, h4]

/-- A linked input whose position is not one of `U`. -/
def Settled (U : List ℕ) (p : Option ℕ × Exchange) : Prop := LinkedInput p.2 ∧ ∀ i, p.1 = some i → i ∉ U

theorem settled_of {l : List Exchange} {p : Option ℕ × Exchange} (hp : p ∈ l.zipIdx.map placed) (h : LinkedInput p.2) :
    Settled ((l.zipIdx.filter fun p => isUnlinked p.1).map (·.2)) p := by
  refine ⟨h, ?_⟩
  intro i hi hU
  obtain ⟨q, hq, rfl⟩ := List.mem_map.mp hp
  obtain ⟨r, hr, hri⟩ := List.mem_map.mp hU
  obtain ⟨hr1, hr2⟩ := List.mem_filter.mp hr
  cases hi
  have e1 : l[q.2]? = some q.1 := List.mem_zipIdx_iff_getElem?.mp hq
  have e2 : l[r.2]? = some r.1 := List.mem_zipIdx_iff_getElem?.mp hr1
  rw [hri, e1] at e2
  have e3 : isUnlinked q.1 = false := unlinked_false h
  rw [Option.some.inj e2] at e3
  rw [e3] at hr2
  cases hr2

theorem consumerRow_eq (T : Topology) {data data' : List Dataset} (h : List.Forall₂ Shuffled data data') {d d' : Dataset} (hd : Shuffled d d') :
    consumerRow T data' d' = consumerRow T data d := by
  unfold consumerRow
  have hp : peerType d' = peerType d := by unfold peerType; rw [hd.type]
  have hf : List.Forall₂ Shuffled (data.filter fun x => x.type == peerType d && x.name == d.name) (data'.filter fun x => x.type == peerType d && x.name == d.name) :=
    forall₂_filter h fun a b hab => by rw [hab.type, hab.name]
  rw [hd.location, hp, hd.name]
  simp only
  rw [locations_eq hf]
  have hiff : (data'.filter fun x => x.type == peerType d && x.name == d.name) = [] ↔ (data.filter fun x => x.type == peerType d && x.name == d.name) = [] := by
    rw [← List.length_eq_zero_iff, ← List.length_eq_zero_iff, hf.length_eq]
  simp only [hiff]

theorem marketsMapping_rel {data data' : List Dataset} (h : List.Forall₂ Shuffled data data') (r : String) :
    List.Forall₂ Shuffled (marketsMapping data r) (marketsMapping data' r) := by
  unfold marketsMapping
  exact forall₂_filter h fun a b hab => by rw [hab.type, hab.refProduct]

theorem candidatesFor_rel {data data' : List Dataset} (h : List.Forall₂ Shuffled data data') {c c' : Option (List Dataset)} (hc : Option.Rel (List.Forall₂ Shuffled) c c')
    {n : String} {r : List Dataset} (hr : candidatesFor data c n = .ok r) : ∃ r', candidatesFor data' c' n = .ok r' ∧ List.Forall₂ Shuffled r r' := by
  unfold candidatesFor at hr ⊢
  have hm := marketsMapping_rel h n
  have hiff : marketsMapping data' n ≠ [] ↔ marketsMapping data n ≠ [] := by
    rw [not_iff_not, ← List.length_eq_zero_iff, ← List.length_eq_zero_iff, hm.length_eq]
  split at hr
  · next h1 => rw [if_pos (hiff.mpr h1)]; cases hr; exact ⟨_, rfl, hm⟩
  · next h1 =>
    rw [if_neg (fun h2 => h1 (hiff.mp h2))]
    split at hr
    · next h2 =>
      rw [if_pos h2]
      cases hc with
      | none => cases hr
      | some h3 => cases hr; exact ⟨_, rfl, h3⟩
    · cases hr

theorem chooseMarkets_rel {T : Topology} {loc : String} {crow : Option (Finset ℕ)} {c c' : List Dataset} (h : List.Forall₂ Shuffled c c') {r : List Dataset}
    (hr : chooseMarkets T loc crow c = .ok r) : ∃ r', chooseMarkets T loc crow c' = .ok r' ∧ List.Forall₂ Shuffled r r' := by
  unfold chooseMarkets at hr ⊢
  have hm := byLocation_rel (forall₂_filter h (p := fun d => d.type == DsType.market) (q := fun d => d.type == DsType.market) fun a b hab => by rw [hab.type])
  have hg := byLocation_rel (forall₂_filter h (p := fun d => d.type == DsType.marketGroup) (q := fun d => d.type == DsType.marketGroup) fun a b hab => by rw [hab.type])
  simp only at hr ⊢
  obtain ⟨srow, h1, h2⟩ := bind_eq_ok.mp hr
  obtain ⟨ordered, h3, h4⟩ := bind_eq_ok.mp h2
  obtain ⟨found, h5, h6⟩ := bind_eq_ok.mp h4
  obtain ⟨found', h7, h8⟩ := bind_eq_ok.mp h6
  have h1' : T.marketsRow (byLocation (c'.filter fun d => d.type == DsType.market)) = .ok srow := by
    unfold Topology.marketsRow at h1 ⊢
    rw [keys_eq hm]; exact h1
  rw [h1', ebind_ok, keys_eq hm, keys_eq hg, h3, ebind_ok, h5, ebind_ok, h7, ebind_ok]
  exact mapE_rel (R := Shuffled) (List.forall₂_same.mpr fun _ _ => rfl : List.Forall₂ (fun a b : String => a = b) found' found') h8
    fun a a' _ _ haa b hb => by subst haa; exact candidateAt_rel hm hg hb

theorem consumerEntry_eq {d d' : Dataset} (h : Shuffled d d') (e : Exchange) : consumerEntry e d' = consumerEntry e d := by
  unfold consumerEntry annotateExchange
  rw [h.volume, h.location, h.codeEq, h.technologyLevel, h.name]

/-- The states of two runs while they link the inputs of a dataset. -/
structure StateRel (U : List ℕ) (d d' : Dataset) (s s' : LinkState) : Prop where
  candidates : Option.Rel (List.Forall₂ Shuffled) s.candidates s'.candidates
  exchanges : Shuf (Settled U) (·.2) s.exchanges s'.exchanges
  suppliers : s.suppliers = none ∧ s'.suppliers = none ∨ s.suppliers = d.suppliers ∧ s'.suppliers = d'.suppliers

theorem splitInput_rel {M : MathEnv} {U : List ℕ} {e : Exchange} (he : isUnlinked e = true) {entries : List Exchange} {ex ex' r : List (Option ℕ × Exchange)}
    (h : Shuf (Settled U) (·.2) ex ex') (hr : splitInput M e entries ex = .ok r) :
    ∃ r', splitInput M e entries ex' = .ok r' ∧ Shuf (Settled U) (·.2) r r' := by
  unfold splitInput at hr ⊢
  obtain ⟨vols, h1, h2⟩ := bind_eq_ok.mp hr
  rw [h1, ebind_ok]
  split at h2
  · next hz => cases h2; rw [if_pos hz]; exact ⟨_, rfl, h⟩
  · next hz =>
    rw [if_neg hz]
    obtain ⟨new, h3, h4⟩ := bind_eq_ok.mp h2
    cases h4
    rw [h3, ebind_ok]
    refine ⟨_, rfl, (h.append (Shuf.refl _)).filter_true ?_⟩
    intro p hp
    rw [decide_eq_true_iff]
    intro h5
    have := unlinked_false hp.1
    rw [h5, he] at this
    cases this

theorem linkInput_rel {M : MathEnv} {T : Topology} {data data' : List Dataset} (h : List.Forall₂ Shuffled data data') {loc : String} {crow : Option (Finset ℕ)}
    {U : List ℕ} {d d' : Dataset} {s s' t : LinkState} (hs : StateRel U d d' s s') {p : Exchange × ℕ} (hp : isUnlinked p.1 = true) (hU : p.2 ∈ U)
    (ht : linkInput M T data loc crow s p = .ok t) : ∃ t', linkInput M T data' loc crow s' p = .ok t' ∧ StateRel U d d' t t' := by
  unfold linkInput at ht ⊢
  obtain ⟨c, h1, h2⟩ := bind_eq_ok.mp ht
  obtain ⟨chosen, h3, h4⟩ := bind_eq_ok.mp h2
  obtain ⟨c', h1', hc⟩ := candidatesFor_rel h hs.candidates h1
  obtain ⟨chosen', h3', hch⟩ := chooseMarkets_rel hc h3
  rw [h1', ebind_ok, h3', ebind_ok]
  cases hch with
  | nil =>
    simp only [useMarkets] at h4 ⊢
    cases h4
    exact ⟨_, rfl, .some hc, hs.exchanges, Or.inl ⟨rfl, rfl⟩⟩
  | @cons o o' r r' ho hrest =>
    cases hrest with
    | nil =>
      simp only [useMarkets] at h4 ⊢
      rw [ho.codeEq]
      obtain ⟨x, h5, h6⟩ := bind_eq_ok.mp h4
      cases h6
      rw [h5, ebind_ok]
      refine ⟨_, rfl, .some hc, ?_, hs.suppliers⟩
      refine hs.exchanges.map (u := fun e => e) ?_
      intro a ha
      have : setCodeAt p.2 x a = a := by
        unfold setCodeAt
        rw [if_neg (fun h7 => ha.2 _ h7 hU)]
      rw [this]
      exact ⟨ha, rfl⟩
    | @cons o2 o2' r r' ho2 hrest =>
      have hent : (o' :: o2' :: r').map (consumerEntry p.1) = (o :: o2 :: r).map (consumerEntry p.1) :=
        (forall₂_map_eq' (.cons ho (.cons ho2 hrest)) fun a b hab => (consumerEntry_eq hab p.1).symm).symm
      simp only [useMarkets] at h4 ⊢
      rw [hent]
      obtain ⟨ex, h5, h6⟩ := bind_eq_ok.mp h4
      cases h6
      obtain ⟨ex', h5', hex⟩ := splitInput_rel hp hs.exchanges h5
      rw [h5', ebind_ok]
      exact ⟨_, rfl, .some hc, hex, Or.inl ⟨rfl, rfl⟩⟩

theorem linkConsumer_rel {M : MathEnv} {T : Topology} {data data' : List Dataset} (h : List.Forall₂ Shuffled data data') {c c' : Option (List Dataset)}
    (hc : Option.Rel (List.Forall₂ Shuffled) c c') {d d' : Dataset} (hd : Shuffled d d') {r : Option (List Dataset) × Dataset} (hr : linkConsumer M T data c d = .ok r) :
    ∃ r', linkConsumer M T data' c' d' = .ok r' ∧ Option.Rel (List.Forall₂ Shuffled) r.1 r'.1 ∧ Shuffled r.2 r'.2 ∧ r.2.code = d.code := by
  unfold linkConsumer at hr ⊢
  split at hr
  · next ht =>
    rw [if_pos (hd.type.trans ht)]
    cases hr
    exact ⟨_, rfl, hc, hd, rfl⟩
  · next ht =>
    rw [if_neg (by rw [hd.type]; exact ht), consumerRow_eq T h hd]
    obtain ⟨crow, h1, h2⟩ := bind_eq_ok.mp hr
    obtain ⟨st, h3, h4⟩ := bind_eq_ok.mp h2
    cases h4
    obtain ⟨hz, hfil⟩ := shuf_placed hd.exchanges 0
    obtain ⟨st', h3', hst⟩ := foldE_rel (f' := linkInput M T data' d.location crow)
      (R := StateRel ((d.exchanges.zipIdx.filter fun p => isUnlinked p.1).map (·.2)) d d')
      (s' := { candidates := c', exchanges := d'.exchanges.zipIdx.map fun p => (some p.2, p.1), suppliers := d'.suppliers })
      ⟨hc, hz.strengthen (fun a ha hl => settled_of ha hl) (fun a ha hl => by rw [hfil]; exact settled_of ha hl), Or.inr ⟨rfl, rfl⟩⟩ h3
      (fun s s' p hp hs t ht => linkInput_rel h hs (List.mem_filter.mp hp).2 (List.mem_map.mpr ⟨p, hp, rfl⟩) ht)
    rw [h1, ebind_ok, hd.location, ← hfil, h3', ebind_ok]
    refine ⟨_, rfl, hst.candidates, ?_, rfl⟩
    have hex : ShufE (st.exchanges.map (·.2)) (st'.exchanges.map (·.2)) := Shuf.map (T := LinkedInput) (g' := id) (f := fun x : Option ℕ × Exchange => x.2) (u := fun e => e) (fun a ha => ⟨ha.1, rfl⟩) hst.exchanges
    have hsup : ShufS st.suppliers st'.suppliers := by
      rcases hst.suppliers with ⟨h5, h6⟩ | ⟨h5, h6⟩
      · rw [h5, h6]; exact .none
      · rw [h5, h6]; exact hd.suppliers
    have hcodes : ∀ l, st.suppliers = some l → ∀ s ∈ l, s.code.getD "" ≠ "" := by
      intro l hl
      rcases hst.suppliers with ⟨h5, -⟩ | ⟨h5, -⟩
      · rw [h5] at hl; cases hl
      · rw [h5] at hl; exact hd.codes l hl
    obtain ⟨a, b, rfl⟩ := hd.inv
    exact ⟨rfl, hex, hsup, hcodes, hd.code⟩

theorem linkConsumer_code {M : MathEnv} {T : Topology} {data : List Dataset} {c : Option (List Dataset)} {d : Dataset} {r : Option (List Dataset) × Dataset}
    (hr : linkConsumer M T data c d = .ok r) : r.2.code = d.code := by
  unfold linkConsumer at hr
  split at hr
  · cases hr; rfl
  · obtain ⟨crow, h1, h2⟩ := bind_eq_ok.mp hr
    obtain ⟨st, h3, h4⟩ := bind_eq_ok.mp h2
    cases h4
    rfl

theorem keeping_consumers (M : MathEnv) (T : Topology) : Keeping (linkConsumersToMarkets M T) (linkConsumersToMarkets M T) := by
  intro data data' out h ho
  unfold linkConsumersToMarkets at ho ⊢
  obtain ⟨m, h1, h2⟩ := bind_eq_ok.mp ho
  obtain ⟨m', h1', -⟩ := withRefProduct_rel (forall₂_filter h.each (q := fun d => d.type == DsType.market || d.type == DsType.marketGroup) fun a b hab => by rw [hab.type]) h1
  rw [h1', ebind_ok]
  obtain ⟨out', h3, h4⟩ := scanE_rel (S := Option.Rel (List.Forall₂ Shuffled)) (R := Shuffled) (s' := none) (f' := linkConsumer M T data') h.each .none h2
    (by
      intro s s' a a' hs ha p hp
      obtain ⟨p', h5, h6, h7, -⟩ := linkConsumer_rel h.each hs ha hp
      exact ⟨p', h5, h6, h7⟩)
  refine ⟨out', h3, h4, ?_⟩
  have : out.map (·.code) = data.map (·.code) := by
    refine (forall₂_map_eq' (scanE_ok h2) ?_).symm
    rintro a b ⟨s, s', hab⟩
    exact (linkConsumer_code hab).symm
  rw [this]
  exact h.nodup

end Ocelot
