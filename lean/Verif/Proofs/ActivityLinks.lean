import Verif.Model.ActivityLinks
import Verif.Proofs.Utils
import Verif.Proofs.Dict
import Verif.Proofs.Params

/-! Lemmas for the activity link properties. -/

set_option linter.unusedSimpArgs false

namespace Ocelot
open Spec

theorem idMapping_eq (data : List Dataset) (i : String) :
    idMapping data i = getKey ((data.filter fun d => d.id == i).getLast?) := by
  unfold idMapping
  rcases hl : (dictOf (fun d : Dataset => d.id) (fun d => d) data).lookup i with _ | d
  · have hnil : (data.filter fun d => d.id == i) = [] := by
      rw [List.filter_eq_nil_iff]
      intro d hd hi
      have hm : i ∈ (dictOf (fun d : Dataset => d.id) (fun d => d) data).map (·.1) :=
        (dictOf_keys_mem _ _ _ _).mpr ⟨d, hd, by simpa using hi⟩
      obtain ⟨q, hq⟩ := (lookup_isSome_iff _ _).mp hm
      rw [hl] at hq; cases hq
    rw [hnil]; rfl
  · obtain ⟨l₁, a, l₂, rfl, hk, hv, hno⟩ := (dictOf_mem _ _ _ _ _).mp (lookup_mem hl)
    subst hv
    rw [List.filter_append, List.filter_cons_of_pos (by simp [hk]),
      (List.filter_eq_nil_iff (l := l₂)).mpr (by simpa using hno)]
    simp

theorem foldE_append {α σ : Type} {f : σ → α → Except Err σ} {s t : σ} {l : List α} {a : α}
    (h : foldE f s (l ++ [a]) = .ok t) : ∃ m, foldE f s l = .ok m ∧ f m a = .ok t := by
  induction l generalizing s with
  | nil =>
    obtain ⟨m, h1, h2⟩ := bind_eq_ok.mp h
    cases h2
    exact ⟨s, rfl, h1⟩
  | cons x l ih =>
    obtain ⟨m, h1, h2⟩ := bind_eq_ok.mp h
    obtain ⟨m', h3, h4⟩ := ih h2
    exact ⟨m', bind_eq_ok.mpr ⟨m, h1, h3⟩, h4⟩

/-- A loop keeps an invariant indexed by the processed elements. -/
theorem foldE_inv {α σ : Type} {f : σ → α → Except Err σ} {I : List α → σ → Prop} {s t : σ} {l : List α}
    (h : foldE f s l = .ok t) (h0 : I [] s)
    (hstep : ∀ pre a s s', a ∈ l → I pre s → f s a = .ok s' → I (pre ++ [a]) s') : I l t := by
  induction l using List.reverseRecOn generalizing t with
  | nil => cases h; exact h0
  | append_singleton l a ih =>
    obtain ⟨m, h1, h2⟩ := foldE_append h
    exact hstep l a m t (by simp) (ih h1 fun pre b s s' hb => hstep pre b s s' (by simp [hb])) h2

theorem foldE_error {α σ : Type} {f : σ → α → Except Err σ} {I : List α → σ → Prop} {s : σ} {l : List α} {err : Err}
    (h : foldE f s l = .error err) (h0 : I [] s)
    (hstep : ∀ pre a s s', a ∈ l → I pre s → f s a = .ok s' → I (pre ++ [a]) s') :
    ∃ pre a m, a ∈ l ∧ I pre m ∧ f m a = .error err := by
  have key : ∀ (done rest : List α) (s : σ), done ++ rest = l → I done s → foldE f s rest = .error err →
      ∃ pre a m, a ∈ l ∧ I pre m ∧ f m a = .error err := by
    intro done rest
    induction rest generalizing done with
    | nil => intro s _ _ h; cases h
    | cons a rest ih =>
      intro s hl hI h
      rcases bind_eq_error.mp h with h | ⟨m, h1, h2⟩
      · exact ⟨done, a, s, by rw [← hl]; simp, hI, h⟩
      · exact ih (done ++ [a]) m (by simpa using hl) (hstep done a s m (by rw [← hl]; simp) hI h1) h2
  exact key [] l s rfl h0 h

/-- The updated subtracted volume. -/
def updSub (s : Option ℚ) : List ℚ → Option ℚ
  | [] => s
  | l => some (s.getD 0 + l.sum)

theorem updSub_append (s : Option ℚ) (l : List ℚ) (v : ℚ) : updSub s (l ++ [v]) = some ((updSub s l).getD 0 + v) := by
  rcases l with _ | ⟨a, l⟩
  · simp [updSub]
  · simp [updSub]; ring

abbrev Contribution := String × String × ℚ

def volsFor (ws : List Contribution) (i n : String) : List ℚ :=
  (ws.filter fun w => w.1 == i && w.2.1 == n).map (·.2.2)

def appliedExc (ws : List Contribution) (i : String) (e : Exchange) : Exchange :=
  if isProduction e then { e with pv := e.pv.map fun p => { p with subtracted := updSub p.subtracted (volsFor ws i e.name) } } else e

def appliedDs (ws : List Contribution) (d : Dataset) : Dataset :=
  { d with exchanges := d.exchanges.map (appliedExc ws d.id) }

theorem appliedExc_prod (ws : List Contribution) (i : String) (e : Exchange) :
    isProduction (appliedExc ws i e) = isProduction e := by
  unfold appliedExc
  split <;> rfl

theorem appliedExc_frame (ws : List Contribution) (i : String) (e : Exchange) :
    appliedExc ws i e = { e with pv := (appliedExc ws i e).pv } := by
  unfold appliedExc
  split <;> rfl

theorem appliedExc_name (ws : List Contribution) (i : String) (e : Exchange) : (appliedExc ws i e).name = e.name := by
  rw [appliedExc_frame]

theorem appliedExc_nil (i : String) (e : Exchange) : appliedExc [] i e = e := by
  unfold appliedExc
  split
  · have : (fun p : PV => { p with subtracted := updSub p.subtracted (volsFor [] i e.name) }) = id := by
      funext p; rfl
    rw [this]
    simp
  · rfl

theorem appliedDs_nil (d : Dataset) : appliedDs [] d = d := by
  unfold appliedDs
  have : appliedExc [] d.id = id := by funext e; exact appliedExc_nil _ _
  rw [this, List.map_id]

theorem appliedExc_step (ws : List Contribution) (i n : String) (v : ℚ) (e : Exchange) :
    appliedExc (ws ++ [(i, n, v)]) i e =
      if isProduction e && e.name == n then { appliedExc ws i e with pv := (appliedExc ws i e).pv.map (addSubtracted v) }
      else appliedExc ws i e := by
  unfold appliedExc
  by_cases hp : isProduction e = true
  · simp only [hp, if_true, Bool.true_and]
    by_cases hn : e.name = n
    · subst hn
      have : volsFor (ws ++ [(i, e.name, v)]) i e.name = volsFor ws i e.name ++ [v] := by
        simp [volsFor, List.filter_append]
      simp only [beq_self_eq_true, if_true, this]
      rcases e.pv with _ | p
      · rfl
      · simp only [Option.map_some, addSubtracted, updSub_append]
    · have : volsFor (ws ++ [(i, n, v)]) i e.name = volsFor ws i e.name := by
        have hn' : ¬ n = e.name := fun h => hn h.symm
        simp [volsFor, List.filter_append, hn']
      simp [hn, this]
  · simp [hp]

theorem appliedExc_other (ws : List Contribution) (i j n : String) (v : ℚ) (h : i ≠ j) (e : Exchange) :
    appliedExc (ws ++ [(i, n, v)]) j e = appliedExc ws j e := by
  unfold appliedExc
  have : volsFor (ws ++ [(i, n, v)]) j e.name = volsFor ws j e.name := by
    simp [volsFor, List.filter_append, h]
  rw [this]

theorem appliedDs_other (ws : List Contribution) (i n : String) (v : ℚ) (d : Dataset) (h : i ≠ d.id) :
    appliedDs (ws ++ [(i, n, v)]) d = appliedDs ws d := by
  unfold appliedDs
  congr 1
  exact List.map_congr_left fun e _ => appliedExc_other ws i d.id n v h e

theorem productionNamed_inv {ds : Dataset} {n : String} {l : List Exchange} (h : productionNamed ds n = .ok l) :
    Classified ds ∧ l = (production ds).filter fun e => e.name == n := by
  obtain ⟨p, hp, h⟩ := bind_eq_ok.mp h
  cases h
  obtain ⟨hc, rfl⟩ := allocatableProduction_inv hp
  exact ⟨hc, rfl⟩

theorem productionNamed_ok {ds : Dataset} (n : String) (h : Classified ds) :
    productionNamed ds n = .ok ((production ds).filter fun e => e.name == n) := by
  unfold productionNamed
  rw [allocatableProduction_ok h]
  rfl

theorem isProductionNamed_eq {e : Exchange} (n : String) (h : e.type = .byproduct → e.cls ≠ none) :
    isProductionNamed n e = (isProduction e && e.name == n) := by
  unfold isProductionNamed
  rw [isAllocatable_ok h]

theorem addToTarget_inv {n : String} {a : ℚ} {sc : Except Err ℚ} {d d' : Dataset} (h : addToTarget n a sc d = .ok d') :
    ∃ s e, sc = .ok s ∧ Classified d ∧ ((production d).filter fun e => e.name == n) = [e] ∧ e.pv ≠ none ∧
      d' = { d with exchanges := d.exchanges.map fun x => if isProduction x && x.name == n then { x with pv := x.pv.map (addSubtracted (a * s)) } else x } := by
  unfold addToTarget at h
  obtain ⟨found, hf, h⟩ := bind_eq_ok.mp h
  obtain ⟨hc, rfl⟩ := productionNamed_inv hf
  rcases hl : ((production d).filter fun e => e.name == n) with _ | ⟨e, _ | ⟨e', l⟩⟩
  · rw [hl] at h; cases h
  · rw [hl] at h
    simp only at h
    obtain ⟨s, hs, h⟩ := bind_eq_ok.mp h
    obtain ⟨p, hp, h⟩ := bind_eq_ok.mp h
    cases h
    refine ⟨s, e, hs, hc, hl, by rw [getKey_eq_ok.mp hp]; simp, ?_⟩
    congr 1
    apply List.map_congr_left
    intro x hx
    rw [isProductionNamed_eq n (hc x hx)]
  · rw [hl] at h; cases h

theorem modifyLast_inv {i : String} {f : Dataset → Except Err Dataset} {st st' : List Dataset}
    (hnd : (st.map (·.id)).Nodup) (h : modifyLast i f st = .ok st') :
    ∃ l₁ d d' l₂, st = l₁ ++ d :: l₂ ∧ d.id = i ∧ f d = .ok d' ∧ st' = l₁ ++ d' :: l₂ := by
  induction st generalizing st' with
  | nil => cases h
  | cons x l ih =>
    unfold modifyLast at h
    by_cases hany : (l.any fun x => x.id == i) = true
    · rw [if_pos hany] at h
      obtain ⟨r, hr, h⟩ := bind_eq_ok.mp h
      cases h
      obtain ⟨l₁, d, d', l₂, rfl, h1, h2, rfl⟩ := ih (by simp at hnd ⊢; exact hnd.2) hr
      exact ⟨x :: l₁, d, d', l₂, rfl, h1, h2, rfl⟩
    · rw [if_neg hany] at h
      by_cases hx : x.id = i
      · rw [if_pos hx] at h
        obtain ⟨d', hd, h⟩ := bind_eq_ok.mp h
        cases h
        exact ⟨[], x, d', l, rfl, hx, hd, rfl⟩
      · rw [if_neg hx] at h; cases h

/-- The ratio of a dataset, zero if it has none. -/
def ratioOf (ds : Dataset) : ℚ := match getBiggestPvRatio ds with | .ok r => r | .error _ => 0

/-- What one exchange contributes. -/
def contribOf (ds : Dataset) (e : Exchange) : List Contribution :=
  match e.activityLink with
  | none => []
  | some l => if l = "" then [] else if l = ds.id then [] else [(l, e.name, e.amount * ratioOf ds)]

theorem appliedDs_id (ws : List Contribution) (d : Dataset) : (appliedDs ws d).id = d.id := rfl

theorem modify_step {data : List Dataset} (hnd : (data.map (·.id)).Nodup) {ws : List Contribution} {i n : String} {a : ℚ}
    {sc : Except Err ℚ} {st' : List Dataset} (h : modifyLast i (addToTarget n a sc) (data.map (appliedDs ws)) = .ok st') :
    ∃ s, sc = .ok s ∧ st' = data.map (appliedDs (ws ++ [(i, n, a * s)])) := by
  have hnd' : ((data.map (appliedDs ws)).map (·.id)).Nodup := by
    rw [List.map_map]
    exact hnd
  obtain ⟨l₁, d, d', l₂, hst, hid, hf, rfl⟩ := modifyLast_inv hnd' h
  obtain ⟨s, e, hs, -, -, -, rfl⟩ := addToTarget_inv hf
  refine ⟨s, hs, ?_⟩
  obtain ⟨a₁, r, rfl, h1, h2⟩ := List.map_eq_append_iff.mp hst
  obtain ⟨b, a₂, rfl, h3, h4⟩ := List.map_eq_cons_iff.mp h2
  subst h1; subst h3; subst h4
  rw [List.map_append, List.map_cons] at hnd
  have hb : b.id = i := hid
  have hne1 : ∀ x ∈ a₁, i ≠ x.id := by
    intro x hx hxi
    exact (List.nodup_append.mp hnd).2.2 x.id (List.mem_map.mpr ⟨x, hx, rfl⟩) b.id (by simp) (by rw [hb, hxi])
  have hne2 : ∀ x ∈ a₂, i ≠ x.id := by
    intro x hx hxi
    exact (List.nodup_cons.mp (List.nodup_append.mp hnd).2.1).1 (List.mem_map.mpr ⟨x, hx, by rw [hb, hxi]⟩)
  rw [List.map_append, List.map_cons]
  congr 1
  · exact List.map_congr_left fun x hx => (appliedDs_other ws i n _ x (hne1 x hx)).symm
  · congr 1
    · unfold appliedDs
      simp only [List.map_map]
      congr 1
      apply List.map_congr_left
      intro x _
      rw [hb, appliedExc_step]
      simp only [Function.comp]
      rw [appliedExc_prod, appliedExc_name]
    · exact List.map_congr_left fun x hx => (appliedDs_other ws i n _ x (hne2 x hx)).symm

theorem hardLinkStep_inv {data : List Dataset} (hnd : (data.map (·.id)).Nodup) {ws : List Contribution} {ds : Dataset}
    {e : Exchange} {st' : List Dataset} (h : hardLinkStep ds (data.map (appliedDs ws)) e = .ok st') :
    st' = data.map (appliedDs (ws ++ contribOf ds e)) ∧
    (contribOf ds e ≠ [] → getBiggestPvRatio ds = .ok (ratioOf ds)) := by
  unfold hardLinkStep at h
  unfold contribOf
  rcases hl : e.activityLink with _ | l
  · rw [hl] at h; cases h; simp
  rw [hl] at h
  simp only at h ⊢
  by_cases h0 : l = ""
  · rw [if_pos h0] at h; cases h; simp [h0]
  rw [if_neg h0] at h ⊢
  by_cases h1 : l = ds.id
  · rw [if_pos h1] at h; cases h; simp [h1]
  rw [if_neg h1] at h ⊢
  obtain ⟨s, hs, rfl⟩ := modify_step hnd h
  have : ratioOf ds = s := by unfold ratioOf; rw [hs]
  rw [this]
  exact ⟨rfl, fun _ => hs⟩

theorem addHardLinked_inv {data out : List Dataset} (hnd : (data.map (·.id)).Nodup)
    (h : addHardLinkedProductionVolumes data = .ok out) :
    out = data.map (appliedDs (data.flatMap fun ds => ds.exchanges.flatMap (contribOf ds))) ∧
    ∀ ds ∈ data, (ds.exchanges.flatMap (contribOf ds)) ≠ [] → getBiggestPvRatio ds = .ok (ratioOf ds) := by
  unfold addHardLinkedProductionVolumes at h
  have := foldE_inv (I := fun pre st => st = data.map (appliedDs (pre.flatMap fun ds => ds.exchanges.flatMap (contribOf ds))) ∧
    ∀ ds ∈ pre, (ds.exchanges.flatMap (contribOf ds)) ≠ [] → getBiggestPvRatio ds = .ok (ratioOf ds)) h ?_ ?_
  · exact this
  · refine ⟨?_, by simp⟩
    have : appliedDs ([] : List Contribution) = id := by funext d; exact appliedDs_nil d
    simp only [List.flatMap_nil, this, List.map_id]
  · rintro pre ds s s' hds ⟨rfl, hall⟩ hstep
    have inner := foldE_inv (I := fun p st => st = data.map (appliedDs ((pre.flatMap fun ds => ds.exchanges.flatMap (contribOf ds)) ++ p.flatMap (contribOf ds))) ∧
      (p.flatMap (contribOf ds) ≠ [] → getBiggestPvRatio ds = .ok (ratioOf ds))) hstep (by simp) ?_
    · refine ⟨by rw [inner.1]; simp [List.flatMap_append], ?_⟩
      intro d hd hne
      rcases List.mem_append.mp hd with hd | hd
      · exact hall d hd hne
      · rw [List.mem_singleton] at hd; subst hd; exact inner.2 hne
    · rintro p e s s' he ⟨rfl, hr⟩ hs
      obtain ⟨rfl, h2⟩ := hardLinkStep_inv hnd hs
      refine ⟨by simp [List.flatMap_append], ?_⟩
      intro hne
      by_cases hc : contribOf ds e = []
      · apply hr
        simpa [List.flatMap_append, hc] using hne
      · exact h2 hc

end Ocelot
