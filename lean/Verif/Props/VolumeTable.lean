import Verif.Model.VolumeTable
import Verif.Props.ReportRows
import Verif.Props.MarketAllocation

/-! # Property C128: the table of market production volumes balances -/

set_option linter.unusedSimpArgs false

namespace Ocelot
open Spec

namespace Spec

/-- The volume of a supplier that is bound by hard links. -/
def boundVol (s : Exchange) : ℚ := (s.pv.map fun p => p.subtracted.getD 0).getD 0

/-- What a supplier entry has lost without a hard link. -/
def gap (s : Exchange) : ℚ := origVol s - boundVol s - vol s

/-- The row describes the market `before`, and the volume that it has in `after`. -/
def RowFor (before after : Dataset) (row : VolumeRow) : Prop :=
  row.name = before.name ∧ row.location = before.location ∧ (refs before).map (·.name) = [row.product] ∧
  (∃ sup, before.suppliers = some sup ∧ row.original = (sup.map origVol).sum ∧ row.inputs = (sup.map boundVol).sum) ∧
  (refs before).map boundVol = [row.market] ∧ (refs after).map vol = [row.net]

/-- `Net` is what is left of `Original`, at least zero. -/
def Balances (row : VolumeRow) : Prop := row.net = max (row.original - row.inputs - row.market) 0

end Spec

theorem mapE_entrySubtracted {l : List Exchange} (h : ∀ s ∈ l, s.pv.isSome) : mapE entrySubtracted l = .ok (l.map boundVol) := by
  rw [← mapE_pure]
  apply mapE_congr
  intro s hs
  obtain ⟨q, hq⟩ := Option.isSome_iff_exists.mp (h s hs)
  unfold entrySubtracted boundVol
  rw [hq]; rfl

theorem originals_isSome {l : List Exchange} {r : List ℚ} (h : mapE entryOriginalVolume l = .ok r) : ∀ s ∈ l, s.pv.isSome := by
  intro s hs
  obtain ⟨b, -, hb⟩ := forall₂_mem_left (mapE_ok_iff.mp h) hs
  obtain ⟨p, hp, -⟩ := bind_eq_ok.mp hb
  rw [getKey_eq_ok.mp hp]; rfl

theorem updateVolumeL_data (ds : Dataset) : (updateVolumeL ds).map (·.2) = updateMarketVolume ds := by
  unfold updateVolumeL updateMarketVolume
  cases getSingleReferenceProduct ds with
  | error e => rfl
  | ok rp =>
    simp only [ebind_ok]
    cases getKey ds.suppliers with
    | error e => rfl
    | ok sup =>
      simp only [ebind_ok]
      cases ho : mapE entryOriginalVolume sup with
      | error e => rfl
      | ok orig =>
        simp only [ebind_ok]
        cases getKey rp.pv with
        | error e => rfl
        | ok p =>
          simp only [ebind_ok, mapE_entrySubtracted (originals_isSome ho)]
          cases mapE entryVolume sup <;> rfl

/-- What one market logs. -/
theorem updateVolumeL_ok {ds out : Dataset} {lg : Log VolumeRow} (h : updateVolumeL ds = .ok (lg, out)) :
    ∃ row sup r, lg = [(.ocelot, row)] ∧ RowFor ds out row ∧ ds.suppliers = some sup ∧ refs ds = [r] ∧
      out = { ds with exchanges := ds.exchanges.map (netSupply sup) } ∧ row.net = max (totalVol sup - boundVol r) 0 ∧
      row.original = (sup.map origVol).sum ∧ row.inputs = (sup.map boundVol).sum ∧ row.market = boundVol r := by
  obtain ⟨sup, r, p, hs, hr, hp, hpv, hout⟩ := updateMarketVolume_ok (map_snd_ok (updateVolumeL_data ds) h)
  unfold updateVolumeL at h
  obtain ⟨r', hr', h⟩ := bind_eq_ok.mp h
  obtain rfl : r' = r := by
    have := getSingle_ok.mp hr'
    rw [hr] at this
    simpa using this.symm
  obtain ⟨sup', hs', h⟩ := bind_eq_ok.mp h
  obtain rfl : sup' = sup := by
    have := getKey_eq_ok.mp hs'
    rw [hs] at this
    exact (Option.some.inj this).symm
  obtain ⟨orig, ho, h⟩ := bind_eq_ok.mp h
  obtain ⟨p', hp', h⟩ := bind_eq_ok.mp h
  obtain rfl : p' = p := by
    have := getKey_eq_ok.mp hp'
    rw [hp] at this
    exact (Option.some.inj this).symm
  rw [mapE_entrySubtracted hpv, ebind_ok] at h
  obtain ⟨vols, hv, h⟩ := bind_eq_ok.mp h
  obtain ⟨rfl, -⟩ := mapE_entryVolume hv
  have := mapE_entryOriginalVolume ho
  subst this
  obtain ⟨rfl, -⟩ := Prod.mk.inj (Except.ok.inj h)
  have hb : boundVol r' = p'.subtracted.getD 0 := by unfold boundVol; rw [hp]; rfl
  refine ⟨_, sup', r', rfl, ⟨rfl, rfl, by rw [hr]; rfl, ⟨sup', hs, rfl, rfl⟩, by rw [hr]; simp [hb], ?_⟩, hs, hr, hout, by rw [hb]; rfl, rfl, rfl, by rw [hb]⟩
  have hty : r'.type = .referenceProduct := by
    have : r' ∈ refs ds := by rw [hr]; simp
    simpa using (List.mem_filter.mp this).2
  rw [hout]
  show ((ds.exchanges.map (netSupply sup')).filter _).map vol = _
  rw [refs_netSupply]
  change ((refs ds).map (netSupply sup')).map vol = _
  rw [hr]
  simp only [List.map_cons, List.map_nil]
  unfold netSupply
  rw [if_pos hty]
  unfold vol
  simp only [hp, Option.map_some, Option.getD_some]
  rfl

theorem groupStepL_data (members : List ℕ) (st : Log VolumeRow × List Dataset) (i : ℕ) : (updateGroupStepL members st i).map (·.2) = updateGroupStep members st.2 i := by
  unfold updateGroupStepL updateGroupStep
  cases st.2[i]? with
  | none => rfl
  | some ds =>
    simp only
    rw [← updateVolumeL_data]
    cases updateVolumeL ds with
    | error e => rfl
    | ok r =>
      simp only [ebind_ok, Except.map]
      cases mapE (propagateTo members r.2 ((productionVolume r.2).getD 0)) (st.2.set i r.2).zipIdx <;> rfl

/-- The log changes nothing. -/
theorem updateVolumesL_data (T : Topology) (kind : DsType) (data : List Dataset) : (updateVolumesL T kind data).map (·.2) = updateMarketProductionVolumes T kind data := by
  unfold updateVolumesL updateMarketProductionVolumes
  split
  · cases groupOrder T data with
    | error e => rfl
    | ok order => exact foldE_data (groupStepL_data _) (([] : Log VolumeRow), data) order
  · refine mapL_data (fun ds => ?_) data
    split
    · exact updateVolumeL_data ds
    · rfl

/-- **C128**, markets: the table has one row for every market, in order, with its name, product, location, the sums over its suppliers, and the volume that the market has afterwards. -/
theorem C128_rows (T : Topology) (kind : DsType) (hk : kind ≠ .marketGroup) (data : List Dataset) :
    Logs (updateVolumesL T kind data) (updateMarketProductionVolumes T kind data) fun rows out =>
      List.Forall₂ (fun (p : Dataset × Dataset) row => RowFor p.1 p.2 row) ((data.zip out).filter fun p => p.1.type == kind) rows := by
  refine ⟨updateVolumesL_data T kind data, fun lg out h => ?_⟩
  unfold updateVolumesL at h
  rw [if_neg hk] at h
  induction data generalizing lg out with
  | nil => cases h; exact .nil
  | cons a l ih =>
    obtain ⟨x, y, h1, h2, h3⟩ := mapL_cons_ok h
    obtain ⟨rfl, rfl⟩ := Prod.mk.inj h3
    have ih' := ih y.1 y.2 h2
    rw [reported_append, List.zip_cons_cons, List.filter_cons]
    by_cases ht : a.type = kind
    · rw [if_pos ht] at h1
      obtain ⟨row, sup, r, hlg, hrow, -⟩ := updateVolumeL_ok (lg := x.1) (out := x.2) h1
      rw [if_pos (by simpa using ht), hlg, reported_one]
      exact .cons hrow ih'
    · rw [if_neg ht] at h1
      rw [if_neg (by simpa using ht), ← Except.ok.inj h1]
      exact ih'

theorem sum_gap (l : List Exchange) : totalVol l = (l.map origVol).sum - (l.map boundVol).sum - (l.map gap).sum := by
  unfold totalVol
  induction l with
  | nil => simp
  | cons a l ih => simp only [List.map_cons, List.sum_cons, ih, gap]; ring

/-- One market: `Net` is `Original` without both subtractions and without what the suppliers have lost otherwise. -/
theorem row_gap {ds out : Dataset} {lg : Log VolumeRow} (h : updateVolumeL ds = .ok (lg, out)) :
    ∃ row, lg = [(.ocelot, row)] ∧ row.net = max (row.original - row.inputs - row.market - ((ds.suppliers.getD []).map gap).sum) 0 := by
  obtain ⟨row, sup, r, hlg, -, hs, hr, -, hn, ho, hi, hm⟩ := updateVolumeL_ok h
  refine ⟨row, hlg, ?_⟩
  rw [hn, ho, hi, hm, hs, Option.getD_some, sum_gap]
  congr 1
  ring

/-- **C128**, what is missing in general: `Net` is what is left of `Original` once the gaps of the suppliers are taken off as well. -/
theorem C128_gap (T : Topology) (kind : DsType) (hk : kind ≠ .marketGroup) (data : List Dataset) (lg : Log VolumeRow) (out : List Dataset)
    (h : updateVolumesL T kind data = .ok (lg, out)) :
    List.Forall₂ (fun (ds : Dataset) (row : VolumeRow) => row.net = max (row.original - row.inputs - row.market - ((ds.suppliers.getD []).map gap).sum) 0)
      (data.filter fun ds => ds.type == kind) lg.reported := by
  unfold updateVolumesL at h
  rw [if_neg hk] at h
  induction data generalizing lg out with
  | nil => cases h; exact .nil
  | cons a l ih =>
    obtain ⟨x, y, h1, h2, h3⟩ := mapL_cons_ok h
    obtain ⟨rfl, rfl⟩ := Prod.mk.inj h3
    have ih' := ih y.1 y.2 h2
    rw [reported_append, List.filter_cons]
    by_cases ht : a.type = kind
    · rw [if_pos ht] at h1
      obtain ⟨row, hlg, hrow⟩ := row_gap (lg := x.1) (out := x.2) h1
      rw [if_pos (by simpa using ht), hlg, reported_one]
      exact .cons hrow ih'
    · rw [if_neg ht] at h1
      rw [if_neg (by simpa using ht), ← Except.ok.inj h1]
      exact ih'

theorem foldE_rows {α ρ σ : Type} {f : Log ρ × σ → α → Except Err (Log ρ × σ)} {I : σ → Prop} {P : ρ → Prop} {l : List α} {st st' : Log ρ × σ}
    (h : foldE f st l = .ok st') (hI : I st.2) (hP : ∀ row ∈ st.1.reported, P row)
    (hf : ∀ st st' a, a ∈ l → I st.2 → f st a = .ok st' → I st'.2 ∧ ∃ new : Log ρ, st'.1 = st.1 ++ new ∧ ∀ row ∈ new.reported, P row) : ∀ row ∈ st'.1.reported, P row := by
  induction l generalizing st with
  | nil => cases h; exact hP
  | cons a l ih =>
    obtain ⟨s, h1, h2⟩ := bind_eq_ok.mp h
    obtain ⟨hI', new, hnew, hrow⟩ := hf st s a List.mem_cons_self hI h1
    refine ih h2 hI' ?_ (fun st st' a ha => hf st st' a (List.mem_cons_of_mem _ ha))
    rw [hnew, reported_append]
    intro row hr
    rcases List.mem_append.mp hr with hr | hr
    · exact hP row hr
    · exact hrow row hr

namespace Spec

/-- A supplier has lost nothing except through hard links. -/
def SoundEntries (ds : Dataset) : Prop := ∀ s ∈ ds.suppliers.getD [], gap s = 0

end Spec

theorem propagateTo_sound {members : List ℕ} {ds : Dataset} {v : ℚ} {p : Dataset × ℕ} {d : Dataset} (h : propagateTo members ds v p = .ok d) (hp : SoundEntries p.1) :
    SoundEntries d := by
  unfold propagateTo at h
  split at h
  · obtain ⟨sup, hs, h⟩ := bind_eq_ok.mp h
    obtain ⟨sup', hs', h⟩ := bind_eq_ok.mp h
    rw [← Except.ok.inj h]
    intro s hmem
    simp only [Option.getD_some] at hmem
    obtain ⟨s0, hs0, h0⟩ := mapE_mem hs' hmem
    unfold propagateVolume at h0
    obtain ⟨c, -, h0⟩ := bind_eq_ok.mp h0
    obtain ⟨c', -, h0⟩ := bind_eq_ok.mp h0
    have := Except.ok.inj h0
    split at this
    · rw [← this]
      simp [gap, origVol, boundVol, vol]
    · rw [← this]
      exact hp s0 (by rw [getKey_eq_ok.mp hs]; exact hs0)
  · rw [← Except.ok.inj h]; exact hp

/-- **C128**: every row balances, for markets and market groups, if the suppliers have lost nothing except through hard links. -/
theorem C128_balance_partial (T : Topology) (kind : DsType) (data : List Dataset) (hd : ∀ ds ∈ data, ds.type = kind → SoundEntries ds)
    (lg : Log VolumeRow) (out : List Dataset) (h : updateVolumesL T kind data = .ok (lg, out)) : ∀ row ∈ lg.reported, Balances row := by
  have hone : ∀ (ds out : Dataset) (lg : Log VolumeRow), updateVolumeL ds = .ok (lg, out) → SoundEntries ds → ∀ row ∈ lg.reported, Balances row := by
    intro ds out lg h hs row hrow
    obtain ⟨r, hlg, hg⟩ := row_gap h
    rw [hlg, reported_one, List.mem_singleton] at hrow
    subst hrow
    have : ((ds.suppliers.getD []).map gap).sum = 0 := List.sum_eq_zero (by
      intro x hx
      obtain ⟨s, hs', rfl⟩ := List.mem_map.mp hx
      exact hs s hs')
    rw [this, sub_zero] at hg
    exact hg
  unfold updateVolumesL at h
  split at h
  · next hk =>
    obtain ⟨order, hord, h⟩ := bind_eq_ok.mp h
    obtain ⟨-, -, hperm, -⟩ := groupOrder_ok hord
    refine foldE_rows (I := fun st => ∀ i ∈ positionsOf kind data, ∀ d, st[i]? = some d → SoundEntries d) h ?_ (by simp [Log.reported]) ?_
    · intro i hi d hdi
      obtain ⟨d', hd', ht⟩ := mem_positionsOf.mp hi
      rw [hd'] at hdi
      obtain rfl := Option.some.inj hdi
      exact hd d' (List.mem_of_getElem? hd') ht
    · intro st st' i hi hI hst
      have hi' : i ∈ positionsOf kind data := hk ▸ hperm.mem_iff.mp hi
      unfold updateGroupStepL at hst
      cases hsi : st.2[i]? with
      | none =>
        rw [hsi] at hst
        obtain rfl := Except.ok.inj hst
        exact ⟨hI, [], by simp, by simp [Log.reported]⟩
      | some ds =>
        rw [hsi] at hst
        obtain ⟨r, hr, hst⟩ := bind_eq_ok.mp hst
        obtain ⟨next, hn, hst⟩ := bind_eq_ok.mp hst
        obtain rfl := Except.ok.inj hst
        have hsd := hI i hi' ds hsi
        refine ⟨?_, r.1, rfl, hone ds r.2 r.1 hr hsd⟩
        intro j hj d hdj
        obtain ⟨hlen, hz⟩ := mapE_zipIdx hn
        have hjl : j < (st.2.set i r.2).length := hlen ▸ (List.getElem?_eq_some_iff.mp hdj).1
        obtain ⟨b, hb, hfb⟩ := hz j _ (List.getElem?_eq_getElem hjl)
        rw [show next[j]? = some d from hdj] at hb
        obtain rfl := Option.some.inj hb
        refine propagateTo_sound hfb ?_
        have hget : (st.2.set i r.2)[j]? = some (st.2.set i r.2)[j] := List.getElem?_eq_getElem hjl
        by_cases hij : i = j
        · subst hij
          obtain ⟨-, sup, -, -, -, hs, -, hout, -⟩ := updateVolumeL_ok (lg := r.1) (out := r.2) hr
          simp only [List.getElem_set_self]
          intro s hs'
          refine hsd s ?_
          rw [hout] at hs'
          exact hs'
        · rw [List.getElem?_set_ne hij] at hget
          exact hI j hj _ hget
  · induction data generalizing lg out with
    | nil => cases h; simp [Log.reported]
    | cons a l ih =>
      obtain ⟨x, y, h1, h2, h3⟩ := mapL_cons_ok h
      obtain ⟨rfl, rfl⟩ := Prod.mk.inj h3
      rw [reported_append]
      intro row hrow
      rcases List.mem_append.mp hrow with hrow | hrow
      · split at h1
        · next ht => exact hone a x.2 x.1 h1 (hd a List.mem_cons_self ht) row hrow
        · rw [← Except.ok.inj h1] at hrow; simp [Log.reported] at hrow
      · exact ih (fun ds hds => hd ds (List.mem_cons_of_mem _ hds)) y.1 y.2 h2 row hrow

/-! ## Where gaps come from -/

theorem gap_some {e : Exchange} {p : PV} (h : e.pv = some p) : gap e = p.originalAmount.getD p.amount - p.subtracted.getD 0 - p.amount := by
  simp [gap, origVol, boundVol, vol, h]

/-- **C128**: no gap in a production volume that covers its hard links. -/
theorem C128_covered (e : Exchange) (p : PV) (s : ℚ) (hs : p.subtracted = some s) (hle : s ≤ p.amount) :
    gap { e with pv := some (reduceVolume p) } = 0 := by
  rw [gap_some rfl]
  simp [reduceVolume, hs, max_eq_left (sub_nonneg.mpr hle)]

/-- **C128**: no gap in a production volume without hard links. -/
theorem C128_free (e : Exchange) (p : PV) (hs : p.subtracted = none) (ho : p.originalAmount = none) :
    gap { e with pv := some (reduceVolume p) } = 0 := by
  rw [gap_some rfl]
  simp [reduceVolume, hs, ho]

/-- **C128**, violated: a supplier with more hard links than production subtracts more in the table than it has. -/
theorem C128_exceeded (e : Exchange) (p : PV) (s : ℚ) (hs : p.subtracted = some s) (hlt : p.amount < s) :
    gap { e with pv := some (reduceVolume p) } = p.amount - s ∧ gap { e with pv := some (reduceVolume p) } < 0 := by
  have : gap { e with pv := some (reduceVolume p) } = p.amount - s := by
    rw [gap_some rfl]
    simp [reduceVolume, hs, max_eq_right (sub_nonpos.mpr hlt.le)]
  exact ⟨this, by rw [this]; exact sub_neg.mpr hlt⟩

/-- **C128**, violated: a hard-linked global supplier that becomes the rest of the world keeps its old volume as `Original`; what the regions produce is counted twice. -/
theorem C128_rest_of_world (e : Exchange) (p : PV) (s regional : ℚ) (ht : e.type = .referenceProduct) (hs : p.subtracted = some s) (hle : s ≤ p.amount) :
    gap (relabelVolume regional { e with pv := some (reduceVolume p) }) = min regional (p.amount - s) := by
  unfold relabelVolume
  rw [if_pos ht, gap_some rfl]
  simp only [reduceVolume, hs, Option.getD_some, max_eq_left (sub_nonneg.mpr hle)]
  rcases le_total regional (p.amount - s) with h | h
  · rw [min_eq_left h, max_eq_left (sub_nonneg.mpr h)]; ring
  · rw [min_eq_right h, max_eq_right (sub_nonpos.mpr h)]; ring

/-- **C128**: without hard links the new volume is the `Original`. -/
theorem C128_rest_of_world_free (e : Exchange) (p : PV) (regional : ℚ) (ht : e.type = .referenceProduct) (hs : p.subtracted = none) (ho : p.originalAmount = none) :
    gap (relabelVolume regional { e with pv := some (reduceVolume p) }) = 0 := by
  unfold relabelVolume
  rw [if_pos ht, gap_some rfl]
  simp [reduceVolume, hs, ho]

/-- **C128**, violated: a market supplies a market group with its net volume as `Original`, and its hard links are subtracted from that once more. -/
theorem C128_twice (ds out : Dataset) (lg : Log VolumeRow) (h : updateVolumeL ds = .ok (lg, out))
    (hf : ∀ e ∈ refs ds, ∀ p, e.pv = some p → p.originalAmount = none) : ∀ row ∈ lg.reported, (refs out).map gap = [-row.market] := by
  obtain ⟨sup, r, p, hs, hr, hp, -, hout⟩ := updateMarketVolume_ok (map_snd_ok (updateVolumeL_data ds) h)
  obtain ⟨row, -, r', hlg, hrow, -, hr', -⟩ := updateVolumeL_ok h
  intro row' hmem
  rw [hlg, reported_one, List.mem_singleton] at hmem
  subst hmem
  have hm := hrow.2.2.2.2.1
  rw [hr] at hm
  have hb : boundVol r = row'.market := by simpa using hm
  have hin : r ∈ refs ds := by rw [hr]; simp
  have hty : r.type = .referenceProduct := by simpa using (List.mem_filter.mp hin).2
  rw [hout]
  show ((ds.exchanges.map (netSupply sup)).filter _).map gap = _
  rw [refs_netSupply]
  change ((refs ds).map (netSupply sup)).map gap = _
  rw [hr, ← hb]
  simp only [List.map_cons, List.map_nil]
  unfold netSupply
  rw [if_pos hty, gap_some (p := { p with amount := max (totalVol sup - p.subtracted.getD 0) 0, originalTotal := some (sup.map origVol).sum }) (by simp [hp])]
  simp only [hf r hin p hp, Option.getD_none, boundVol, hp, Option.map_some, Option.getD_some]
  congr 1
  ring

/-! ## Market groups -/

namespace Spec

/-- The row names the dataset and shows its volume and the volume that is bound by hard links. -/
def ShowsVolume (row : VolumeRow) (ds : Dataset) : Prop :=
  row.name = ds.name ∧ row.location = ds.location ∧ (refs ds).map (·.name) = [row.product] ∧
  (refs ds).map boundVol = [row.market] ∧ (refs ds).map vol = [row.net]

end Spec

theorem propagateTo_same {members : List ℕ} {ds : Dataset} {v : ℚ} {p : Dataset × ℕ} {d : Dataset} (h : propagateTo members ds v p = .ok d) :
    d.name = p.1.name ∧ d.location = p.1.location ∧ refs d = refs p.1 := by
  unfold propagateTo at h
  split at h
  · obtain ⟨sup, hs, h⟩ := bind_eq_ok.mp h
    obtain ⟨sup', hs', h⟩ := bind_eq_ok.mp h
    rw [← Except.ok.inj h]
    exact ⟨rfl, rfl, rfl⟩
  · rw [← Except.ok.inj h]; exact ⟨rfl, rfl, rfl⟩

theorem shows_of_same {row : VolumeRow} {d e : Dataset} (h : ShowsVolume row d) (hn : e.name = d.name) (hl : e.location = d.location) (hr : refs e = refs d) : ShowsVolume row e := by
  obtain ⟨h1, h2, h3, h4, h5⟩ := h
  exact ⟨h1.trans hn.symm, h2.trans hl.symm, hr ▸ h3, hr ▸ h4, hr ▸ h5⟩

theorem groups_fold {members : List ℕ} {l : List ℕ} {st st' : Log VolumeRow × List Dataset} {pre : List ℕ}
    (h : foldE (updateGroupStepL members) st l = .ok st') (hnd : (pre ++ l).Nodup) (hlt : ∀ i ∈ l, i < st.2.length)
    (hI : List.Forall₂ (fun i row => ∃ d, st.2[i]? = some d ∧ ShowsVolume row d) pre st.1.reported) :
    List.Forall₂ (fun i row => ∃ d, st'.2[i]? = some d ∧ ShowsVolume row d) (pre ++ l) st'.1.reported := by
  induction l generalizing st pre with
  | nil => cases h; simpa using hI
  | cons i l ih =>
    obtain ⟨s, h1, h2⟩ := bind_eq_ok.mp h
    have hil : i < st.2.length := hlt i List.mem_cons_self
    unfold updateGroupStepL at h1
    rw [List.getElem?_eq_getElem hil] at h1
    obtain ⟨r, hr, h1⟩ := bind_eq_ok.mp h1
    obtain ⟨next, hn, h1⟩ := bind_eq_ok.mp h1
    obtain rfl := Except.ok.inj h1
    obtain ⟨hlen, hz⟩ := mapE_zipIdx hn
    rw [List.length_set] at hlen
    have hni : i ∉ pre := by
      intro hin
      exact (List.nodup_append.mp hnd).2.2 i hin i List.mem_cons_self rfl
    have hpc : pre ++ i :: l = (pre ++ [i]) ++ l := by simp
    rw [hpc]
    rw [hpc] at hnd
    refine ih h2 hnd (fun j hj => ?_) ?_
    · show j < next.length
      rw [hlen]
      exact hlt j (List.mem_cons_of_mem _ hj)
    · show List.Forall₂ _ (pre ++ [i]) (Log.reported (st.1 ++ r.1))
      rw [reported_append]
      obtain ⟨row, sup, r', hlg, hrow, -, hr', hout, -⟩ := updateVolumeL_ok (lg := r.1) (out := r.2) hr
      refine List.rel_append ?_ ?_
      · have : ∀ j ∈ pre, i ≠ j := fun j hj hij => hni (hij ▸ hj)
        refine (forall₂_with_mem hI).imp fun j row' hj => ?_
        obtain ⟨hj, d, hd, hs⟩ := hj
        obtain ⟨b, hb, hfb⟩ := hz j d (by rw [List.getElem?_set_ne (this j hj)]; exact hd)
        obtain ⟨e1, e2, e3⟩ := propagateTo_same hfb
        exact ⟨b, hb, shows_of_same hs e1 e2 e3⟩
      · rw [hlg, reported_one]
        refine .cons ?_ .nil
        obtain ⟨b, hb, hfb⟩ := hz i r.2 (by rw [List.getElem?_set_self hil])
        obtain ⟨e1, e2, e3⟩ := propagateTo_same hfb
        refine ⟨b, hb, shows_of_same ?_ e1 e2 e3⟩
        obtain ⟨g1, g2, g3, -, g5, g6⟩ := hrow
        refine ⟨by rw [g1, hout], by rw [g2, hout], ?_, ?_, g6⟩
        · rw [← g3, hout]
          show ((_ : List Exchange).filter _).map _ = _
          rw [refs_netSupply, List.map_map]
          refine List.map_congr_left fun e _ => ?_
          simp only [Function.comp, netSupply]
          split <;> rfl
        · rw [← g5, hout]
          show ((_ : List Exchange).filter _).map _ = _
          rw [refs_netSupply, List.map_map]
          refine List.map_congr_left fun e _ => ?_
          simp only [Function.comp, netSupply, boundVol]
          split
          · cases e.pv <;> rfl
          · rfl

/-- **C128**, market groups: the table has one row for every group, from the small ones to the large ones, and `Net` is the volume that the group has in the end. -/
theorem C128_group_rows (T : Topology) (data : List Dataset) :
    Logs (updateVolumesL T .marketGroup data) (updateMarketProductionVolumes T .marketGroup data) fun rows out =>
      ∃ order, groupOrder T data = .ok order ∧ order.Perm (positionsOf .marketGroup data) ∧
        List.Forall₂ (fun i row => ∃ d, out[i]? = some d ∧ ShowsVolume row d) order rows := by
  refine ⟨updateVolumesL_data T .marketGroup data, fun lg out h => ?_⟩
  unfold updateVolumesL at h
  rw [if_pos rfl] at h
  obtain ⟨order, hord, h⟩ := bind_eq_ok.mp h
  obtain ⟨-, -, hperm, -⟩ := groupOrder_ok hord
  refine ⟨order, hord, hperm, ?_⟩
  refine groups_fold (pre := []) h ?_ ?_ .nil
  · simpa using hperm.nodup_iff.mpr (positionsOf_nodup _ _)
  · intro i hi
    obtain ⟨d, hd, -⟩ := mem_positionsOf.mp (hperm.mem_iff.mp hi)
    exact (List.getElem?_eq_some_iff.mp hd).1

/-! ## Examples -/

/-- Two suppliers, 3 + 2 of 20 + 30 bound by hard links, and 5 more bound to the market. -/
def tableMarket : Dataset :=
  { name := "market for p", location := "GLO", type := .market
    exchanges := [{ name := "p", type := .referenceProduct, amount := 1, pv := some { amount := 0, subtracted := some 5 } }]
    suppliers := some [{ name := "p", type := .referenceProduct, amount := 1, code := some "a", pv := some (reduceVolume { amount := 20, subtracted := some 3 }) },
      { name := "p", type := .referenceProduct, amount := 1, code := some "b", pv := some (reduceVolume { amount := 30, subtracted := some 2 }) }] }

example : SoundEntries tableMarket := by unfold SoundEntries; decide +kernel

example : (updateVolumesL ⟨[], fun _ => 1⟩ .market [tableMarket]).map (·.1.reported) = .ok [⟨"market for p", "p", "GLO", 50, 5, 5, 40⟩] := by decide +kernel

/-- The first supplier is the rest of the world of a global supplier with 20, of which 10 come from regions; the second is one of these regions. -/
def tableRest : Dataset :=
  { tableMarket with suppliers := some [relabelVolume 10 { name := "p", type := .referenceProduct, amount := 1, code := some "a", pv := some (reduceVolume { amount := 20, subtracted := some 3 }) },
      { name := "p", type := .referenceProduct, amount := 1, code := some "b", pv := some (reduceVolume { amount := 10 }) }] }

example : (updateVolumesL ⟨[], fun _ => 1⟩ .market [tableRest]).map (·.1.reported) = .ok [⟨"market for p", "p", "GLO", 30, 3, 5, 12⟩] := by decide +kernel

/-- A group with the market of the first example as its only supplier: 40 − 5 is not 40. -/
def tableGroup : Dataset :=
  { name := "market group for p", location := "GLO", type := .marketGroup, code := some "g"
    exchanges := [{ name := "p", type := .referenceProduct, amount := 1, pv := some { amount := 0 } }]
    suppliers := some [{ name := "p", type := .referenceProduct, amount := 1, code := some "m", pv := some { amount := 40, subtracted := some 5, originalTotal := some 50 } }] }

example : (updateVolumesL ⟨[("GLO", {1})], fun _ => 1⟩ .marketGroup [tableGroup]).map (·.1.reported) = .ok [⟨"market group for p", "p", "GLO", 40, 5, 0, 40⟩] := by decide +kernel

/-- **C128** fails as stated: there are markets and market groups whose row does not balance. -/
theorem C128_unbalanced : ∃ T kind data, kind = .marketGroup ∧ ∃ lg out, updateVolumesL T kind data = .ok (lg, out) ∧ ∃ row ∈ lg.reported, ¬ Balances row := by
  refine ⟨⟨[("GLO", {1})], fun _ => 1⟩, .marketGroup, [tableGroup], rfl, ?_⟩
  have h : (updateVolumesL ⟨[("GLO", {1})], fun _ => 1⟩ .marketGroup [tableGroup]).map (·.1.reported) = .ok [⟨"market group for p", "p", "GLO", 40, 5, 0, 40⟩] := by decide +kernel
  cases hr : updateVolumesL ⟨[("GLO", {1})], fun _ => 1⟩ .marketGroup [tableGroup] with
  | error e => rw [hr] at h; cases h
  | ok r =>
    rw [hr] at h
    refine ⟨r.1, r.2, rfl, ⟨"market group for p", "p", "GLO", 40, 5, 0, 40⟩, ?_, ?_⟩
    · rw [show r.1.reported = _ from Except.ok.inj h]; simp
    · unfold Balances; norm_num

end Ocelot
