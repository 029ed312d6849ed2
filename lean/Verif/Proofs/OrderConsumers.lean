import Verif.Proofs.OrderVolumes

/-! Links to markets, on the same datasets in another order. -/

namespace Ocelot
open Spec

theorem chooseMarkets_perm {T : Topology} {loc : String} {crow : Option (Finset ℕ)} {c c' r : List Dataset} (hp : c.Perm c')
    (hm : ((c.filter fun d => d.type == .market).map (·.location)).Nodup) (hg : ((c.filter fun d => d.type == .marketGroup).map (·.location)).Nodup)
    (h : chooseMarkets T loc crow c = .ok r) : chooseMarkets T loc crow c' = .ok r := by
  unfold chooseMarkets at h ⊢
  have k1 := byLocation_keys_perm (hp.filter fun d => d.type == .market)
  have k2 := byLocation_keys_perm (hp.filter fun d => d.type == .marketGroup)
  have l1 := fun k => byLocation_lookup_perm hm (hp.filter fun d => d.type == .market) k
  have l2 := fun k => byLocation_lookup_perm hg (hp.filter fun d => d.type == .marketGroup) k
  obtain ⟨srow, h1, h2⟩ := bind_eq_ok.mp h
  simp only
  rw [marketsRow_perm k1 h1, ebind_ok, ordered_perm k1 k2]
  obtain ⟨ordered, h3, h4⟩ := bind_eq_ok.mp h2
  obtain ⟨found, h5, h6⟩ := bind_eq_ok.mp h4
  obtain ⟨found', h7, h8⟩ := bind_eq_ok.mp h6
  rw [h3, ebind_ok, h5, ebind_ok, h7, ebind_ok, mapE_congr (fun s _ => candidateAt_perm k1 l1 l2 s)]
  exact h8

theorem mapping_nodup {K : Known} {s : List Dataset} (hb : Base K s) (r : String) {kind : DsType} (hk : kind ≠ .transforming) :
    (((marketsMapping s r).filter fun d => d.type == kind).map (·.location)).Nodup := by
  refine nodup_locations hb ((hb.nodup.filter _).filter _) hk (r := r) ?_
  intro d hd
  obtain ⟨h1, h2⟩ := List.mem_filter.mp hd
  obtain ⟨h3, h4⟩ := List.mem_filter.mp h1
  simp only [Bool.and_eq_true, beq_iff_eq] at h4
  exact ⟨h3, by simpa using h2, h4.2⟩

/-- The state of the links of one dataset, except for the list left over from the previous exchange. -/
def SameState (st st' : LinkState) : Prop := st'.exchanges = st.exchanges ∧ st'.suppliers = st.suppliers

theorem useMarkets_same {M : MathEnv} {st st' r : LinkState} (hs : SameState st st') {e : Exchange} {i : ℕ} {chosen : List Dataset}
    (h : useMarkets M st e i chosen = .ok r) : ∃ r', useMarkets M st' e i chosen = .ok r' ∧ SameState r r' := by
  obtain ⟨h1, h2⟩ := hs
  unfold useMarkets at h ⊢
  rw [h1]
  split at h
  · cases h; exact ⟨_, rfl, rfl, rfl⟩
  · obtain ⟨c, h3, h⟩ := bind_eq_ok.mp h
    cases h
    rw [h3]
    exact ⟨_, rfl, rfl, h2⟩
  · obtain ⟨c, h3, h⟩ := bind_eq_ok.mp h
    cases h
    rw [h3]
    exact ⟨_, rfl, rfl, rfl⟩

/-- No input called refinery gas needs the list left over from the previous exchange. -/
theorem gas_found {K : Known} (hK : K.loose = false) (hk : ∀ x ∈ K.pairs, x.1 ≠ "") {s : List Dataset} (hb : Base K s) {d : Dataset} (hd : d ∈ s) {e : Exchange}
    (he : e ∈ d.exchanges) (hu : isUnlinked e = true) : e.name = "refinery gas" → marketsMapping s e.name ≠ [] := by
  intro hname
  unfold isUnlinked at hu
  simp only [Bool.and_eq_true, beq_iff_eq] at hu
  rcases hb.gas with ⟨x, hx, hsell, -⟩ | h | ⟨h, -⟩
  · intro h0
    obtain ⟨h1, h2⟩ := hsell
    have : x ∈ marketsMapping s e.name := by
      unfold marketsMapping
      rw [List.mem_filter]
      refine ⟨hx, ?_⟩
      rw [hname]
      simpa using ⟨h1, h2⟩
    rw [h0] at this
    cases this
  · exfalso
    cases hc : e.code with
    | none => exact h d hd e he hu.1 hc hname
    | some c =>
      have hc0 : c = "" := by have := hu.2; rw [hc] at this; exact this
      have hl := (hb.good d hd).exc e he
      exact (hl c hc).ne hk hc0
  · rw [hK] at h; cases h

theorem linkInput_same {K : Known} (hK : K.loose = false) (hk : ∀ x ∈ K.pairs, x.1 ≠ "") {M : MathEnv} {T : Topology} {a b : List Dataset} (hp : a.Perm b) (ha : Base K a)
    {loc : String} {crow : Option (Finset ℕ)} {d : Dataset} (hd : d ∈ a) {p : Exchange × ℕ} (he : p.1 ∈ d.exchanges) (hu : isUnlinked p.1 = true) {st st' r : LinkState}
    (hs : SameState st st') (h : linkInput M T a loc crow st p = .ok r) : ∃ r', linkInput M T b loc crow st' p = .ok r' ∧ SameState r r' := by
  unfold linkInput at h ⊢
  obtain ⟨c, h1, h2⟩ := bind_eq_ok.mp h
  obtain ⟨chosen, h3, h4⟩ := bind_eq_ok.mp h2
  have hgas := gas_found hK hk ha hd he hu
  have hpm : (marketsMapping a p.1.name).Perm (marketsMapping b p.1.name) := hp.filter _
  have hc : marketsMapping a p.1.name ≠ [] ∧ c = marketsMapping a p.1.name := by
    unfold candidatesFor at h1
    split at h1
    · next hne => cases h1; exact ⟨hne, rfl⟩
    · next hne =>
      split at h1
      · next hg => exact absurd (hgas hg) hne
      · cases h1
  have hb : candidatesFor b st'.candidates p.1.name = .ok (marketsMapping b p.1.name) := by
    unfold candidatesFor
    rw [if_pos]
    intro h0
    rw [h0] at hpm
    exact hc.1 hpm.eq_nil
  rw [hb, ebind_ok]
  rw [hc.2] at h3
  rw [chooseMarkets_perm hpm (mapping_nodup ha _ (by decide)) (mapping_nodup ha _ (by decide)) h3, ebind_ok]
  exact useMarkets_same (st := { st with candidates := some c }) (st' := { st' with candidates := some (marketsMapping b p.1.name) }) ⟨hs.1, hs.2⟩ h4

theorem consumerRow_perm {T : Topology} {a b : List Dataset} (hp : a.Perm b) {d : Dataset} {r : Option (Finset ℕ)} (h : consumerRow T a d = .ok r) : consumerRow T b d = .ok r := by
  unfold consumerRow at h ⊢
  split at h
  · next hl =>
    rw [if_pos hl]
    have hq := hp.filter fun x => x.type == peerType d && x.name == d.name
    simp only at h ⊢
    split at h
    · cases h
    · next hne =>
      rw [if_neg (fun h0 => hne (by rw [h0] at hq; exact hq.eq_nil))]
      obtain ⟨x, h1, h2⟩ := bind_eq_ok.mp h
      exact bind_eq_ok.mpr ⟨x, resolveRow_perm (hq.map _) h1, h2⟩
  · next hl => rw [if_neg hl]; exact h

theorem linkConsumer_same {K : Known} (hK : K.loose = false) (hk : ∀ x ∈ K.pairs, x.1 ≠ "") {M : MathEnv} {T : Topology} {a b : List Dataset} (hp : a.Perm b) (ha : Base K a)
    {d : Dataset} (hd : d ∈ a) {c c' : Option (List Dataset)} {r : Option (List Dataset) × Dataset} (h : linkConsumer M T a c d = .ok r) :
    ∃ r', linkConsumer M T b c' d = .ok r' ∧ r'.2 = r.2 := by
  unfold linkConsumer at h ⊢
  split at h
  · next ht => cases h; rw [if_pos ht]; exact ⟨_, rfl, rfl⟩
  · next ht =>
    rw [if_neg ht]
    obtain ⟨crow, h1, h2⟩ := bind_eq_ok.mp h
    obtain ⟨st, h3, h4⟩ := bind_eq_ok.mp h2
    cases h4
    rw [consumerRow_perm hp h1, ebind_ok]
    have key : ∀ (l : List (Exchange × ℕ)) (s s' r : LinkState), (∀ p ∈ l, p.1 ∈ d.exchanges ∧ isUnlinked p.1 = true) → SameState s s' →
        foldE (linkInput M T a d.location crow) s l = .ok r → ∃ r', foldE (linkInput M T b d.location crow) s' l = .ok r' ∧ SameState r r' := by
      intro l
      induction l with
      | nil => intro s s' r _ hs h; cases h; exact ⟨s', rfl, hs⟩
      | cons p l ih =>
        intro s s' r hl hs h
        obtain ⟨s1, g1, g2⟩ := bind_eq_ok.mp h
        obtain ⟨s1', g3, g4⟩ := linkInput_same hK hk hp ha hd (hl p (by simp)).1 (hl p (by simp)).2 hs g1
        obtain ⟨r', g5, g6⟩ := ih s1 s1' r (fun q hq => hl q (by simp [hq])) g4 g2
        exact ⟨r', bind_eq_ok.mpr ⟨s1', g3, g5⟩, g6⟩
    obtain ⟨st', h5, h6, h7⟩ := key _ { candidates := c, exchanges := d.exchanges.zipIdx.map fun p => (some p.2, p.1), suppliers := d.suppliers } { candidates := c', exchanges := d.exchanges.zipIdx.map fun p => (some p.2, p.1), suppliers := d.suppliers } st (by
      rintro ⟨e, i⟩ hpm
      obtain ⟨g1, g2⟩ := List.mem_filter.mp hpm
      have := List.mk_mem_zipIdx_iff_getElem?.mp g1
      exact ⟨List.mem_of_getElem? this, g2⟩) ⟨rfl, rfl⟩ h3
    rw [h5, ebind_ok]
    exact ⟨_, rfl, by simp only [h6, h7]⟩

theorem scanE_progress {σ α β : Type} {f : σ → α → Except Err (σ × β)} {l : List α} {r : List β} (h : List.Forall₂ (fun a b => ∀ s, ∃ p, f s a = .ok p ∧ p.2 = b) l r) :
    ∀ s, scanE f s l = .ok r := by
  induction h with
  | nil => exact fun _ => rfl
  | cons hab _ ih =>
    intro s
    obtain ⟨p, h1, h2⟩ := hab s
    unfold scanE
    rw [h1, ebind_ok, ih p.1, ebind_ok, h2]
    rfl

theorem perm_consumers {K : Known} (hK : K.loose = false) (hk : ∀ x ∈ K.pairs, x.1 ≠ "") {M : MathEnv} {T : Topology} (a b r : List Dataset) (hp : a.Perm b) (ha : Base K a)
    (h : linkConsumersToMarkets M T a = .ok r) : ∃ r', linkConsumersToMarkets M T b = .ok r' ∧ Chain r r' := by
  have hb := stable_base hK a b (Or.inl hp) ha
  unfold linkConsumersToMarkets at h ⊢
  obtain ⟨l, h1, h2⟩ := bind_eq_ok.mp h
  obtain ⟨l', h3, -⟩ := mapE_perm (hp.filter _) h1
  rw [h3, ebind_ok]
  obtain ⟨r', h4, h5⟩ := mapE_perm (f := fun d => (linkConsumer M T b none d).map (·.2)) hp (mapE_ok_iff.mpr ((forall₂_with_mem (scanE_ok h2)).imp (by
    rintro d e ⟨hd, s, s', hs⟩
    obtain ⟨p, g1, g2⟩ := linkConsumer_same hK hk hp ha hd (c' := none) hs
    rw [g1]
    exact congrArg Except.ok g2)))
  refine ⟨r', ?_, .single (Or.inl h5)⟩
  refine scanE_progress ((forall₂_with_mem (mapE_ok_iff.mp h4)).imp ?_) none
  rintro d e ⟨hd, hde⟩ s
  cases hl : linkConsumer M T b none d with
  | error x => rw [hl] at hde; cases hde
  | ok p =>
    rw [hl] at hde
    cases hde
    exact linkConsumer_same hK hk (.refl b) hb hd hl

end Ocelot
