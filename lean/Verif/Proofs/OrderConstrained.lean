import Verif.Proofs.OrderFinish
import Verif.Proofs.PipelineElementary

/-! The functions of the consequential model before codes are given, on the same datasets in another order. -/

namespace Ocelot
open Spec

/-! ## Datasets with one id -/

def byId (i : String) (l : List Dataset) : List Dataset := l.filter fun d => decide (d.id = i)

/-- The same datasets, perhaps in another order, but those with one id are in the same order. -/
def IdSame (a b : List Dataset) : Prop := ∀ i, byId i a = byId i b

theorem IdSame.perm {a b : List Dataset} (h : IdSame a b) : a.Perm b := by
  rw [List.perm_iff_count]
  intro d
  have key : ∀ l : List Dataset, l.count d = (byId d.id l).count d := by
    intro l
    unfold byId
    rw [List.count_filter (by simp)]
  rw [key a, key b, h]

theorem IdSame.map {a b : List Dataset} (h : IdSame a b) {g : Dataset → Dataset} (hg : ∀ d, (g d).id = d.id) : IdSame (a.map g) (b.map g) := by
  intro i
  have key : ∀ l : List Dataset, byId i (l.map g) = (byId i l).map g := by
    intro l
    unfold byId
    rw [List.filter_map]
    simp only [Function.comp_def, hg]
  rw [key, key, h]

theorem byId_any (i : String) (l : List Dataset) : ((byId i l).any fun x => x.id == i) = l.any fun x => x.id == i := by
  unfold byId
  induction l with
  | nil => rfl
  | cons d l ih =>
    rw [List.filter_cons]
    by_cases hd : d.id = i
    · simp [hd]
    · simp only [hd, decide_false, Bool.false_eq_true, if_false, ih, List.any_cons]
      simp [hd]

theorem modifyLast_byId {i : String} {f : Dataset → Except Err Dataset} (hf : ∀ d d', f d = .ok d' → d'.id = d.id) (l : List Dataset) :
    modifyLast i f (byId i l) = (modifyLast i f l).map (byId i) := by
  induction l with
  | nil => rfl
  | cons d l ih =>
    have hany := byId_any i l
    by_cases hd : d.id = i
    · have hb : byId i (d :: l) = d :: byId i l := by unfold byId; rw [List.filter_cons, if_pos (by simpa using hd)]
      rw [hb]
      unfold modifyLast
      rw [hany]
      split
      · rw [ih]
        cases modifyLast i f l with
        | error e => rfl
        | ok r =>
          show Except.ok (d :: byId i r) = Except.ok (byId i (d :: r))
          unfold byId
          rw [List.filter_cons, if_pos (by simpa using hd)]
      · cases hfd : f d with
        | error e => rfl
        | ok d' =>
          show Except.ok (d' :: byId i l) = Except.ok (byId i (d' :: l))
          unfold byId
          rw [List.filter_cons, if_pos (by rw [hf d d' hfd]; simpa using hd)]
    · have hb : byId i (d :: l) = byId i l := by unfold byId; rw [List.filter_cons, if_neg (by simpa using hd)]
      rw [hb]
      rw [modifyLast]
      split
      · rw [ih]
        cases modifyLast i f l with
        | error e => rfl
        | ok r =>
          show Except.ok (byId i r) = Except.ok (byId i (d :: r))
          unfold byId
          rw [List.filter_cons, if_neg (by simpa using hd)]
      · next hno =>
        try rw [if_neg hd]
        have : byId i l = [] := by
          unfold byId
          rw [List.filter_eq_nil_iff]
          intro x hx hxi
          exact hno (List.any_eq_true.mpr ⟨x, hx, by simpa using hxi⟩)
        rw [this]
        rfl

theorem modifyLast_other {i j : String} (hij : i ≠ j) {f : Dataset → Except Err Dataset} (hf : ∀ d d', f d = .ok d' → d'.id = d.id) {l r : List Dataset}
    (h : modifyLast i f l = .ok r) : byId j r = byId j l := by
  obtain ⟨l₁, d, d', l₂, rfl, h1, h2, rfl⟩ := modifyLast_split h
  unfold byId
  rw [List.filter_append, List.filter_append, List.filter_cons, List.filter_cons, if_neg (by rw [hf d d' h2, h1]; simpa using hij), if_neg (by rw [h1]; simpa using hij)]

theorem modifyLast_ids {i : String} {f : Dataset → Except Err Dataset} (hf : ∀ d d', f d = .ok d' → d'.id = d.id) {l r : List Dataset}
    (h : modifyLast i f l = .ok r) : r.map (·.id) = l.map (·.id) := by
  obtain ⟨l₁, d, d', l₂, rfl, h1, h2, rfl⟩ := modifyLast_split h
  simp [hf d d' h2]

theorem modifyLast_modify {link : String} {f : Dataset → Except Err Dataset} {g : Dataset → Dataset} (hg : ∀ d, (g d).id = d.id) :
    ∀ (l : List Dataset) (i : ℕ), (∀ d, l[i]? = some d → d.id ≠ link) → modifyLast link f (l.modify i g) = (modifyLast link f l).map fun r => r.modify i g
  | [], i, _ => by cases i <;> rfl
  | d :: l, 0, h => by
    rw [List.modify_zero_cons, modifyLast, modifyLast]
    have hd : d.id ≠ link := h d rfl
    split
    · cases modifyLast link f l with
      | error e => rfl
      | ok r => rfl
    · simp only [hg, hd, if_false]
      rfl
  | d :: l, i + 1, h => by
    rw [List.modify_succ_cons, modifyLast, modifyLast]
    have hany : ((l.modify i g).any fun x => x.id == link) = l.any fun x => x.id == link := by
      have : (l.modify i g).map (·.id) = l.map (·.id) := map_modify_eq hg i l
      have e : ∀ m : List Dataset, (m.any fun x => x.id == link) = (m.map (·.id)).any fun x => x == link := fun m => by rw [List.any_map]; rfl
      rw [e, e, this]
    rw [hany]
    split
    · rw [modifyLast_modify hg l i fun x hx => h x (by simpa using hx)]
      cases modifyLast link f l with
      | error e => rfl
      | ok r => rfl
    · split
      · cases f d with
        | error e => rfl
        | ok d' => rfl
      · rfl

/-! ## Constrained exchanges -/

theorem swapRoles_id {name : String} (d d' : Dataset) (h : swapRoles name d = .ok d') : d'.id = d.id := by
  rw [(swapRoles_ok h).1]

/-- What a constrained exchange does to its target. -/
def targetStep (st : List Dataset) (e : Exchange) : Except Err (List Dataset) := do
  let link ← getKey e.activityLink
  modifyLast link (swapRoles e.name) st

/-- The dataset with its constrained exchanges as inputs. -/
def flipOwn (d : Dataset) : Dataset := { d with exchanges := d.exchanges.map fun e => if e.conditional = some true then toInput e else e }

def condsOf (data : List Dataset) : List Exchange := data.flatMap fun d => d.exchanges.filter fun e => decide (e.conditional = some true)

def flipAt (p : ℕ × ℕ × Exchange) (st : List Dataset) : List Dataset := modifyExchange p.1 p.2.1 toInput st

def flipAll (L : List (ℕ × ℕ × Exchange)) (st : List Dataset) : List Dataset := L.foldl (fun s p => flipAt p s) st

theorem flipAt_ids (p : ℕ × ℕ × Exchange) (st : List Dataset) : (flipAt p st).map (·.id) = st.map (·.id) :=
  map_modify_eq (fun d => (rfl : ({ d with exchanges := d.exchanges.modify p.2.1 toInput } : Dataset).id = d.id)) p.1 st

theorem flipAll_ids (L : List (ℕ × ℕ × Exchange)) (st : List Dataset) : (flipAll L st).map (·.id) = st.map (·.id) := by
  induction L generalizing st with
  | nil => rfl
  | cons p L ih => exact (ih (flipAt p st)).trans (flipAt_ids p st)

/-- The exchange `e` does not lead to the dataset at the position of `p`. -/
def Missed (ids : List String) (e : Exchange) (p : ℕ × ℕ × Exchange) : Prop := ∀ link, e.activityLink = some link → ids[p.1]? ≠ some link

theorem target_flipAt {e : Exchange} {p : ℕ × ℕ × Exchange} {st : List Dataset} (h : Missed (st.map (·.id)) e p) :
    targetStep (flipAt p st) e = (targetStep st e).map (flipAt p) := by
  unfold targetStep
  cases hl : e.activityLink with
  | none => rfl
  | some link =>
    have := h link hl
    show modifyLast link _ (flipAt p st) = (modifyLast link _ st).map (flipAt p)
    unfold flipAt modifyExchange
    exact modifyLast_modify (g := fun ds : Dataset => { ds with exchanges := ds.exchanges.modify p.2.1 toInput }) (fun _ => rfl) st p.1 fun d hd hid => this (by rw [List.getElem?_map, hd, Option.map_some, hid])

theorem targetStep_ids {e : Exchange} {st t : List Dataset} (h : targetStep st e = .ok t) : t.map (·.id) = st.map (·.id) := by
  unfold targetStep at h
  obtain ⟨link, -, h⟩ := bind_eq_ok.mp h
  exact modifyLast_ids swapRoles_id h

theorem target_flipAll {e : Exchange} : ∀ (L : List (ℕ × ℕ × Exchange)) (st : List Dataset), (∀ p ∈ L, Missed (st.map (·.id)) e p) →
    targetStep (flipAll L st) e = (targetStep st e).map (flipAll L)
  | [], st, _ => by
    show targetStep st e = (targetStep st e).map fun x => x
    cases targetStep st e <;> rfl
  | p :: L, st, h => by
    have h1 := target_flipAt (h p (by simp))
    have h2 := target_flipAll L (flipAt p st) (fun q hq => by rw [flipAt_ids]; exact h q (by simp [hq]))
    show targetStep (flipAll L (flipAt p st)) e = _
    rw [h2, h1]
    cases targetStep st e <;> rfl

theorem constrained_pull : ∀ (L : List (ℕ × ℕ × Exchange)) (st : List Dataset), (∀ p ∈ L, ∀ q ∈ L, Missed (st.map (·.id)) q.2.2 p) →
    foldE constrainedStep st L = foldE targetStep (flipAll L st) (L.map (·.2.2))
  | [], st, _ => rfl
  | p :: L, st, h => by
    show (targetStep (flipAt p st) p.2.2 >>= fun s => foldE constrainedStep s L) = (targetStep (flipAll L (flipAt p st)) p.2.2 >>= fun s => foldE targetStep s (L.map (·.2.2)))
    rw [target_flipAll L (flipAt p st) (fun q hq => by rw [flipAt_ids]; exact h q (by simp [hq]) p (by simp))]
    cases ht : targetStep (flipAt p st) p.2.2 with
    | error e => rfl
    | ok t =>
      have hids : t.map (·.id) = st.map (·.id) := (targetStep_ids ht).trans (flipAt_ids p st)
      show foldE constrainedStep t L = foldE targetStep (flipAll L t) (L.map (·.2.2))
      exact constrained_pull L t fun a ha b hb => by rw [hids]; exact h a (by simp [ha]) b (by simp [hb])

theorem flip_inner (pre post : List Dataset) (d : Dataset) : ∀ (rest done : List Exchange),
    flipAll ((rest.zipIdx done.length).filterMap fun e => if e.1.conditional = some true then some (pre.length, e.2, e.1) else none) (pre ++ { d with exchanges := done ++ rest } :: post) =
      pre ++ { d with exchanges := done ++ rest.map fun e => if e.conditional = some true then toInput e else e } :: post
  | [], done => rfl
  | e :: rest, done => by
    have ih := flip_inner pre post d rest
    rw [List.zipIdx_cons, List.filterMap_cons]
    by_cases hc : e.conditional = some true
    · have h1 := ih (done ++ [toInput e])
      simp only [hc, if_true]
      show flipAll _ (flipAt _ _) = _
      have h2 : flipAt (pre.length, done.length, e) (pre ++ { d with exchanges := done ++ e :: rest } :: post) = pre ++ { d with exchanges := done ++ [toInput e] ++ rest } :: post := by
        unfold flipAt modifyExchange
        rw [modify_at_length]
        simp only [modify_at_length, List.append_assoc, List.singleton_append]
      rw [h2]
      simp only [List.length_append, List.length_singleton] at h1
      rw [h1]
      simp [hc]
    · have h1 := ih (done ++ [e])
      simp only [hc, if_false]
      simp only [List.length_append, List.length_singleton, List.append_assoc, List.singleton_append] at h1
      rw [h1]
      simp [hc]

theorem flip_outer : ∀ (rest pre : List Dataset),
    flipAll ((rest.zipIdx pre.length).flatMap fun d => d.1.exchanges.zipIdx.filterMap fun e => if e.1.conditional = some true then some (d.2, e.2, e.1) else none) (pre ++ rest) =
      pre ++ rest.map flipOwn
  | [], pre => rfl
  | d :: rest, pre => by
    rw [List.zipIdx_cons, List.flatMap_cons]
    have h1 := flip_inner pre rest d d.exchanges []
    have h2 := flip_outer rest (pre ++ [flipOwn d])
    unfold flipAll at h1 h2 ⊢
    rw [List.foldl_append]
    simp only [List.length_nil, List.nil_append] at h1
    rw [h1]
    simp only [List.length_append, List.length_singleton, List.append_assoc, List.singleton_append] at h2
    rw [List.map_cons]
    exact h2

theorem constrained_map (data : List Dataset) : (constrainedExchanges data).map (·.2.2) = condsOf data := by
  have h1 : ∀ (i : ℕ) (l : List Exchange) (k : ℕ), ((l.zipIdx k).filterMap fun e => if e.1.conditional = some true then some (i, e.2, e.1) else none).map (·.2.2) =
      l.filter fun e => decide (e.conditional = some true) := by
    intro i l
    induction l with
    | nil => intro k; rfl
    | cons e l ih =>
      intro k
      rw [List.zipIdx_cons, List.filterMap_cons, List.filter_cons]
      by_cases hc : e.conditional = some true
      · simp only [hc, if_true, decide_true, List.map_cons, ih]
      · simp only [hc, if_false, decide_false, Bool.false_eq_true, ih]
  have h2 : ∀ (l : List Dataset) (k : ℕ), ((l.zipIdx k).flatMap fun d => d.1.exchanges.zipIdx.filterMap fun e => if e.1.conditional = some true then some (d.2, e.2, e.1) else none).map (·.2.2) =
      condsOf l := by
    intro l
    induction l with
    | nil => intro k; rfl
    | cons d l ih =>
      intro k
      rw [List.zipIdx_cons, List.flatMap_cons, List.map_append, ih, h1]
      rfl
  exact h2 data 0

/-- Constrained exchanges lead to different datasets, unless they belong to the same one, and to datasets without constrained exchanges. -/
def OwnTargetsById (data : List Dataset) : Prop :=
  ∀ d ∈ data, ∀ e ∈ d.exchanges, ∀ d' ∈ data, ∀ e' ∈ d'.exchanges, e.conditional = some true → e'.conditional = some true → ∀ l, e.activityLink = some l →
    d'.id ≠ l ∧ (e'.activityLink = some l → d'.id = d.id)

theorem handle_eq {data : List Dataset} (ho : OwnTargetsById data) : handleConstrainedMarkets data = foldE targetStep (data.map flipOwn) (condsOf data) := by
  unfold handleConstrainedMarkets
  rw [constrained_pull _ data ?_, constrained_map]
  · have := flip_outer data []
    simp only [List.length_nil, List.nil_append] at this
    unfold constrainedExchanges
    rw [this]
  · rintro ⟨i, j, e⟩ hp ⟨i', j', e'⟩ hq link hl hid
    obtain ⟨h1, h2⟩ := mem_constrainedExchanges.mp hp
    obtain ⟨h3, h4⟩ := mem_constrainedExchanges.mp hq
    unfold exchangeAt at h1 h3
    obtain ⟨d, hd, he⟩ := Option.bind_eq_some_iff.mp h1
    obtain ⟨d', hd', he'⟩ := Option.bind_eq_some_iff.mp h3
    rw [List.getElem?_map, hd, Option.map_some, Option.some.injEq] at hid
    exact (ho d' (List.mem_of_getElem? hd') e' (List.mem_of_getElem? he') d (List.mem_of_getElem? hd) e (List.mem_of_getElem? he) h4 h2 link hl).1 hid

/-! ## One target after the other -/

def toId (i : String) (L : List Exchange) : List Exchange := L.filter fun e => decide (e.activityLink = some i)

theorem targets_forward : ∀ (L : List Exchange) (S out : List Dataset), foldE targetStep S L = .ok out →
    (∀ e ∈ L, ∃ l, e.activityLink = some l) ∧ ∀ i, foldE targetStep (byId i S) (toId i L) = .ok (byId i out)
  | [], S, out, h => by cases h; exact ⟨by simp, fun i => rfl⟩
  | e :: L, S, out, h => by
    obtain ⟨t, h1, h2⟩ := bind_eq_ok.mp h
    obtain ⟨h3, h4⟩ := targets_forward L t out h2
    unfold targetStep at h1
    obtain ⟨link, hl, h1⟩ := bind_eq_ok.mp h1
    have hl := getKey_eq_ok.mp hl
    refine ⟨fun x hx => ?_, fun i => ?_⟩
    · rcases List.mem_cons.mp hx with rfl | hx
      · exact ⟨link, hl⟩
      · exact h3 x hx
    · by_cases hi : link = i
      · subst hi
        have : toId link (e :: L) = e :: toId link L := by unfold toId; rw [List.filter_cons, if_pos (by simpa using hl)]
        rw [this]
        refine bind_eq_ok.mpr ⟨byId link t, ?_, h4 link⟩
        unfold targetStep
        rw [hl]
        show modifyLast link _ (byId link S) = _
        rw [modifyLast_byId swapRoles_id, h1]
        rfl
      · have : toId i (e :: L) = toId i L := by unfold toId; rw [List.filter_cons, if_neg (by rw [hl]; simpa using hi)]
        rw [this, ← modifyLast_other hi swapRoles_id h1]
        exact h4 i

theorem targets_back : ∀ (L : List Exchange) (S : List Dataset), (∀ e ∈ L, ∃ l, e.activityLink = some l) → (∀ i, ∃ o, foldE targetStep (byId i S) (toId i L) = .ok o) →
    ∃ out, foldE targetStep S L = .ok out
  | [], S, _, _ => ⟨S, rfl⟩
  | e :: L, S, hl, h => by
    obtain ⟨link, hlink⟩ := hl e (by simp)
    obtain ⟨o, ho⟩ := h link
    have : toId link (e :: L) = e :: toId link L := by unfold toId; rw [List.filter_cons, if_pos (by simpa using hlink)]
    rw [this] at ho
    obtain ⟨x, hx, hx2⟩ := bind_eq_ok.mp ho
    unfold targetStep at hx
    rw [hlink] at hx
    change modifyLast link _ (byId link S) = _ at hx
    rw [modifyLast_byId swapRoles_id] at hx
    cases hm : modifyLast link (swapRoles e.name) S with
    | error err => rw [hm] at hx; cases hx
    | ok t =>
      rw [hm] at hx
      cases hx
      obtain ⟨out, hout⟩ := targets_back L t (fun y hy => hl y (by simp [hy])) (by
        intro i
        by_cases hi : link = i
        · subst hi; exact ⟨o, hx2⟩
        · obtain ⟨o', ho'⟩ := h i
          have : toId i (e :: L) = toId i L := by unfold toId; rw [List.filter_cons, if_neg (by rw [hlink]; simpa using hi)]
          rw [this] at ho'
          exact ⟨o', by rw [modifyLast_other hi swapRoles_id hm]; exact ho'⟩)
      refine ⟨out, bind_eq_ok.mpr ⟨t, ?_, hout⟩⟩
      unfold targetStep
      rw [hlink]
      exact hm

theorem flatMap_filter_of_nil {α β : Type} {f : α → List β} {p : α → Bool} : ∀ {l : List α}, (∀ a ∈ l, p a = false → f a = []) → l.flatMap f = (l.filter p).flatMap f
  | [], _ => rfl
  | a :: l, h => by
    have ih := flatMap_filter_of_nil (l := l) fun x hx => h x (by simp [hx])
    rw [List.flatMap_cons, List.filter_cons]
    cases hp : p a with
    | false => rw [h a (by simp) hp, ih]; rfl
    | true => rw [ih]; rfl

theorem OwnTargetsById.perm {a b : List Dataset} (ho : OwnTargetsById a) (h : a.Perm b) : OwnTargetsById b :=
  fun d hd e he d' hd' e' he' => ho d (h.mem_iff.mpr hd) e he d' (h.mem_iff.mpr hd') e' he'

theorem toId_conds {data : List Dataset} (ho : OwnTargetsById data) {d : Dataset} (hd : d ∈ data) {e : Exchange} (he : e ∈ d.exchanges) (hc : e.conditional = some true)
    {i : String} (hl : e.activityLink = some i) : toId i (condsOf data) = toId i (condsOf (byId d.id data)) := by
  unfold toId condsOf
  rw [List.filter_flatMap, List.filter_flatMap]
  apply flatMap_filter_of_nil
  intro x hx hid
  rw [List.filter_eq_nil_iff]
  intro y hy hyl
  obtain ⟨hy, hyc⟩ := List.mem_filter.mp hy
  exact of_decide_eq_false hid ((ho d hd e he x hx y hy hc (of_decide_eq_true hyc) i hl).2 (of_decide_eq_true hyl))

theorem toId_same {a b : List Dataset} (h : IdSame a b) (ho : OwnTargetsById a) (i : String) : toId i (condsOf a) = toId i (condsOf b) := by
  by_cases hex : ∃ d ∈ a, ∃ e ∈ d.exchanges, e.conditional = some true ∧ e.activityLink = some i
  · obtain ⟨d, hd, e, he, hc, hl⟩ := hex
    rw [toId_conds ho hd he hc hl, toId_conds (ho.perm h.perm) (h.perm.mem_iff.mp hd) he hc hl, h]
  · have key : ∀ l : List Dataset, (∀ d ∈ l, d ∈ a) → toId i (condsOf l) = [] := by
      intro l hl
      unfold toId condsOf
      rw [List.filter_eq_nil_iff]
      intro e he hel
      obtain ⟨d, hd, he⟩ := List.mem_flatMap.mp he
      obtain ⟨he, hc⟩ := List.mem_filter.mp he
      exact hex ⟨d, hl d hd, e, he, of_decide_eq_true hc, of_decide_eq_true hel⟩
    rw [key a fun _ h => h, key b fun d hd => h.perm.mem_iff.mpr hd]

theorem perm_constrained {a b r : List Dataset} (h : IdSame a b) (ho : OwnTargetsById a) (hr : handleConstrainedMarkets a = .ok r) :
    ∃ r', handleConstrainedMarkets b = .ok r' ∧ IdSame r r' := by
  rw [handle_eq ho] at hr
  rw [handle_eq (ho.perm h.perm)]
  obtain ⟨h1, h2⟩ := targets_forward _ _ _ hr
  have hs : IdSame (a.map flipOwn) (b.map flipOwn) := h.map fun _ => rfl
  have h3 : ∀ e ∈ condsOf b, ∃ l, e.activityLink = some l := by
    intro e he
    obtain ⟨d, hd, he⟩ := List.mem_flatMap.mp he
    exact h1 e (List.mem_flatMap.mpr ⟨d, h.perm.mem_iff.mpr hd, he⟩)
  obtain ⟨r', hr'⟩ := targets_back (condsOf b) (b.map flipOwn) h3 fun i => ⟨byId i r, by rw [← toId_same h ho i, ← hs i]; exact h2 i⟩
  refine ⟨r', hr', fun i => ?_⟩
  have h4 := (targets_forward _ _ _ hr').2 i
  rw [← toId_same h ho i, ← hs i, h2 i] at h4
  exact Except.ok.inj h4

/-! ## The other functions -/

theorem idSame_flatMapE {g : Dataset → Except Err (List Dataset)} (hg : ∀ d l, g d = .ok l → ∀ x ∈ l, x.id = d.id) {a b r : List Dataset} (hn : (a.map (·.id)).Nodup)
    (hp : a.Perm b) (h : flatMapE g a = .ok r) : ∃ r', flatMapE g b = .ok r' ∧ IdSame r r' := by
  obtain ⟨bs, h3, rfl⟩ := flatMapE_ok_iff.mp h
  let k : Dataset → List Dataset := fun d => ((g d).toOption).getD []
  have hok : ∀ d ∈ a, g d = .ok (k d) := by
    intro d hd
    obtain ⟨x, -, hb⟩ := forall₂_mem_left (mapE_ok_iff.mp h3) hd
    show g d = Except.ok (((g d).toOption).getD [])
    rw [hb]
    rfl
  have hall : ∀ m : List Dataset, (∀ d ∈ m, d ∈ a) → mapE g m = .ok (m.map k) := by
    intro m hm
    rw [← mapE_pure]
    exact mapE_congr fun d hd => hok d (hm d hd)
  have e1 : bs = a.map k := Except.ok.inj (h3.symm.trans (hall a fun _ h => h))
  subst e1
  refine ⟨_, flatMapE_ok_iff.mpr ⟨_, hall b fun d hd => hp.mem_iff.mpr hd, rfl⟩, fun i => ?_⟩
  unfold byId
  rw [← List.flatMap_def, ← List.flatMap_def, List.filter_flatMap, List.filter_flatMap]
  apply flatMap_one hp
  have key : ∀ d ∈ a, (k d).filter (fun x => decide (x.id = i)) ≠ [] → d.id = i := by
    intro d hd hne
    obtain ⟨x, hx⟩ := List.exists_mem_of_ne_nil _ hne
    obtain ⟨hx, hxi⟩ := List.mem_filter.mp hx
    rw [← hg d _ (hok d hd) x hx]
    exact of_decide_eq_true hxi
  intro x hx y hy hxn hyn
  exact eq_of_id hn hx hy ((key x hx hxn).trans (key y hy hyn).symm)

/-- No new constrained exchanges, and no new targets. -/
structure Bound (d d' : Dataset) : Prop where
  id : d'.id = d.id
  exchanges : ∀ e' ∈ d'.exchanges, ∃ e ∈ d.exchanges, e'.conditional = e.conditional ∧ ∀ l, e'.activityLink = some l → e.activityLink = some l

theorem Bound.refl (d : Dataset) : Bound d d := ⟨rfl, fun e he => ⟨e, he, rfl, fun _ h => h⟩⟩

theorem Bound.trans {a b c : Dataset} (h : Bound a b) (h' : Bound b c) : Bound a c := by
  refine ⟨h'.id.trans h.id, fun e he => ?_⟩
  obtain ⟨x, hx, h1, h2⟩ := h'.exchanges e he
  obtain ⟨y, hy, h3, h4⟩ := h.exchanges x hx
  exact ⟨y, hy, h1.trans h3, fun l hl => h4 l (h2 l hl)⟩

theorem bound_own {a r : List Dataset} (ho : OwnTargetsById a) (h : ∀ d' ∈ r, ∃ d ∈ a, Bound d d') : OwnTargetsById r := by
  intro d hd e he d' hd' e' he' hc hc' l hl
  obtain ⟨x, hx, hxd⟩ := h d hd
  obtain ⟨y, hy, hyd⟩ := h d' hd'
  obtain ⟨u, hu, h1, h2⟩ := hxd.exchanges e he
  obtain ⟨v, hv, h3, h4⟩ := hyd.exchanges e' he'
  obtain ⟨h5, h6⟩ := ho x hx u hu y hy v hv (h1.symm.trans hc) (h3.symm.trans hc') l (h2 l hl)
  rw [hxd.id, hyd.id]
  exact ⟨h5, fun hl' => h6 (h4 l hl')⟩

theorem Bound.mapExchanges {g : Exchange → Exchange} (hg : ∀ e, (g e).conditional = e.conditional ∧ ∀ l, (g e).activityLink = some l → e.activityLink = some l) (d : Dataset) :
    Bound d { d with exchanges := d.exchanges.map g } := by
  refine ⟨rfl, fun e' he => ?_⟩
  obtain ⟨e, hm, rfl⟩ := List.mem_map.mp he
  exact ⟨e, hm, hg e⟩

theorem Bound.mapNumE {f : NumObj → Except Err NumObj} {d d' : Dataset} (h : d.mapNumE f = .ok d') : Bound d d' := by
  obtain ⟨-, hd, hex, -⟩ := Dataset.mapNumE_inv h
  refine ⟨by rw [hd], fun e' he => ?_⟩
  obtain ⟨e, he, hee⟩ := forall₂_mem_right hex he
  have := (Exchange.mapNumE_frame hee).1.1
  refine ⟨e, he, by rw [this], fun l hl => ?_⟩
  rw [this] at hl
  exact hl

theorem Bound.change {f : NumObj → NumObj} {a : Addr} (d : Dataset) : Bound d (d.change f a) := by
  have key : ∀ (g : Exchange → Exchange) (i : ℕ), (∀ e, (g e).conditional = e.conditional ∧ (g e).activityLink = e.activityLink) → Bound d (changeExchange g i d) := by
    intro g i hg
    refine ⟨rfl, fun e' he => ?_⟩
    have hF := kept_modify (R := fun e e' : Exchange => e'.conditional = e.conditional ∧ e'.activityLink = e.activityLink) (fun _ => ⟨rfl, rfl⟩) hg i d.exchanges
    obtain ⟨e, he, h1, h2⟩ := forall₂_mem_right hF he
    exact ⟨e, he, h1, fun l hl => h2 ▸ hl⟩
  cases a with
  | exc i => exact key _ i fun e => ⟨rfl, rfl⟩
  | pv i => exact key _ i fun e => ⟨rfl, rfl⟩
  | prop i j => exact key _ i fun e => ⟨rfl, rfl⟩
  | par i => exact ⟨rfl, fun e he => ⟨e, he, rfl, fun _ h => h⟩⟩

theorem Bound.foldE {α : Type} {f : Dataset → α → Except Err Dataset} (hf : ∀ d a d', f d a = .ok d' → Bound d d') {l : List α} {d d' : Dataset}
    (h : foldE f d l = .ok d') : Bound d d' :=
  foldE_inv (I := fun _ s => Bound d s) h (.refl d) fun _ a s s' _ hs hstep => hs.trans (hf s a s' hstep)

theorem Bound.references {d d' : Dataset} (h : replaceImplicitReferences d = .ok d') : Bound d d' := by
  have hr : ∀ {find : Dataset → Text → Except Err Addr} {name : Text → String} {a : Addr} (s : Dataset) (r : Text × Text) (s' : Dataset),
      replaceReference find name a s r = .ok s' → Bound s s' := by
    intro find name a s r s' hs
    unfold replaceReference at hs
    obtain ⟨target, -, hs⟩ := bind_eq_ok.mp hs
    cases hs
    have : Bound s (giveVariable (name r.2) target s).2 := by
      unfold giveVariable
      split
      · exact .refl _
      · exact .change _
    exact this.trans (.change _)
  refine Bound.foldE (f := replaceReferencesAt) ?_ h
  intro s a s' hs
  unfold replaceReferencesAt at hs
  obtain ⟨s1, h1, hs⟩ := bind_eq_ok.mp hs
  exact (Bound.foldE (hr (a := a)) h1).trans (Bound.foldE (hr (a := a)) hs)

/-- Results of the function have no new constrained exchanges. -/
def Binds (f : List Dataset → Except Err (List Dataset)) : Prop := ∀ data out, f data = .ok out → List.Forall₂ Bound data out

theorem binds_mapE {g : Dataset → Except Err Dataset} (h : ∀ d d', g d = .ok d' → Bound d d') : Binds (mapE g) :=
  fun _ _ ho => (mapE_ok_iff.mp ho).imp fun d d' => h d d'

theorem binds_map {g : Dataset → Dataset} (h : ∀ d, Bound d (g d)) : Binds (fun data => .ok (data.map g)) := by
  intro data out ho
  cases ho
  exact List.forall₂_map_right_iff.mpr (List.forall₂_same.mpr fun d _ => h d)

theorem binds_check {f : List Dataset → Except Err (List Dataset)} (h : ∀ data out, f data = .ok out → out = data) : Binds f := by
  intro data out ho
  rw [h data out ho]
  exact List.forall₂_same.mpr fun d _ => .refl d

theorem binds_looks {α : Type} {f : List Dataset → Except Err α} : Binds (fun data => f data >>= fun _ => .ok data) := by
  apply binds_check
  intro data out h
  obtain ⟨_, -, h⟩ := bind_eq_ok.mp h
  cases h
  rfl

/-- The functions before combined productions are split. -/
def consequentialStart : List Step := consequentialBefore.take 17

theorem start_binds (P : PipelineEnv) {s : Step} (hs : s ∈ consequentialStart) : ∃ g, s.run P = onDatasets g ∧ Binds g := by
  unfold consequentialStart consequentialBefore at hs
  simp only [List.take, List.mem_cons, List.not_mem_nil, or_false] at hs
  rcases hs with rfl | rfl | rfl | rfl | rfl | rfl | rfl | rfl | rfl | rfl | rfl | rfl | rfl | rfl | rfl | rfl | rfl
  · refine ⟨_, rfl, binds_check fun data out h => ?_⟩
    unfold ensureIdsAreUnique at h
    split at h
    · cases h
    · cases h; rfl
  · exact ⟨_, rfl, binds_map fun d => .mapExchanges (g := fun e => { e with originalId := some e.id }) (fun _ => ⟨rfl, fun _ h => h⟩) d⟩
  · exact ⟨_, rfl, binds_looks (f := fun data => forE (fun ds : Dataset => uniqueLoop (ds.numObjs.filter NumObj.isParam) []) data)⟩
  · exact ⟨_, rfl, binds_looks (f := fun data => forE checkOneReferenceProduct (data.filter fun ds => ds.type == .market))⟩
  · exact ⟨_, rfl, binds_looks (f := fun data => forE checkOwnConsumption (data.filter fun ds => ds.type == .market))⟩
  · refine ⟨_, rfl, binds_map fun d => ?_⟩
    unfold fixSpecificIssues
    split
    · exact ⟨rfl, fun e he => ⟨e, (List.mem_filter.mp he).1, rfl, fun _ h => h⟩⟩
    · exact .refl d
  · exact ⟨_, rfl, binds_mapE fun _ _ h => .references h⟩
  · exact ⟨_, rfl, binds_mapE fun _ _ h => .mapNumE h⟩
  · refine ⟨_, rfl, binds_mapE fun d d' h => Bound.foldE (f := fixKnownStep) ?_ h⟩
    intro d a d' h
    unfold fixKnownStep at h
    split at h
    · exact .mapNumE h
    · cases h; exact .refl _
  · exact ⟨_, rfl, binds_mapE fun _ _ h => .mapNumE h⟩
  · exact ⟨_, rfl, binds_mapE fun _ _ h => .mapNumE h⟩
  · exact ⟨_, rfl, binds_mapE fun _ _ h => .mapNumE h⟩
  · exact ⟨_, rfl, binds_mapE fun _ _ h => .mapNumE h⟩
  · exact ⟨_, rfl, binds_looks (f := fun data => forE checkVolumesGiven data)⟩
  · refine ⟨_, rfl, binds_mapE fun d d' h => ?_⟩
    unfold fillVolumes at h
    obtain ⟨b, -, h⟩ := bind_eq_ok.mp h
    cases b
    · cases h; exact .refl _
    · simp only [if_true] at h
      obtain ⟨scale, -, h⟩ := bind_eq_ok.mp h
      obtain ⟨ex, hex, h⟩ := bind_eq_ok.mp h
      cases h
      refine ⟨rfl, fun e' he => ?_⟩
      obtain ⟨e, he, hee⟩ := mapE_mem hex he
      refine ⟨e, he, ?_⟩
      unfold fillByproduct at hee
      obtain ⟨b, -, hee⟩ := bind_eq_ok.mp hee
      split at hee
      · unfold fillVolume at hee
        obtain ⟨pv, -, hee⟩ := bind_eq_ok.mp hee
        split at hee <;> (cases hee; exact ⟨rfl, fun _ h => h⟩)
      · cases hee; exact ⟨rfl, fun _ h => h⟩
  · refine ⟨_, rfl, binds_map fun d => ⟨rfl, fun e' he => ?_⟩⟩
    unfold createPvParameters at he
    obtain ⟨e, hem, rfl⟩ := List.mem_map.mp he
    refine ⟨e, hem, ?_⟩
    unfold pvParameter
    split
    · exact ⟨rfl, fun _ h => h⟩
    · split <;> exact ⟨rfl, fun _ h => h⟩
  · refine ⟨_, rfl, ?_⟩
    unfold dropZeroAmountActivityLinks
    exact binds_map fun d => .mapExchanges (fun e => by
      unfold dropZeroLink
      split
      · exact ⟨rfl, fun _ h => by cases h⟩
      · exact ⟨rfl, fun _ h => h⟩) d

theorem combined_bound {M : MathEnv} {F : FormulaEnv} {ord : Dataset → Except Err (List String)} {d d' : Dataset} {out : List Dataset}
    (h : combinedProduction M F ord d = .ok out) (hd : d' ∈ out) : Bound d d' := by
  unfold combinedProduction at h
  obtain ⟨x, hx, hr⟩ := mapE_mem h hd
  unfold recalculateO at hr
  obtain ⟨o, -, hr⟩ := bind_eq_ok.mp hr
  unfold recalculate at hr
  obtain ⟨σ, -, hr⟩ := bind_eq_ok.mp hr
  obtain ⟨ds', h2, hr⟩ := bind_eq_ok.mp hr
  have hsub : Bound d (subdivided d x) := by
    refine ⟨rfl, fun z hz => ?_⟩
    unfold subdivided at hz
    simp only [List.mem_append, List.mem_singleton, List.mem_map, List.mem_filter] at hz
    rcases hz with (rfl | ⟨w, hw, rfl⟩) | hw
    · exact ⟨x, (List.mem_filter.mp hx).1, rfl, fun _ h => h⟩
    · exact ⟨w, hw.1, rfl, fun _ h => h⟩
    · exact ⟨z, hw.1, rfl, fun _ h => h⟩
  exact hsub.trans ((Bound.mapNumE h2).trans (.mapNumE hr))

theorem perm_deleteLinks {a b r : List Dataset} (h : IdSame a b) (hr : deleteLinksToConstrained a = .ok r) :
    ∃ r', deleteLinksToConstrained b = .ok r' ∧ IdSame r r' ∧ List.Forall₂ Bound a r := by
  unfold deleteLinksToConstrained at hr ⊢
  obtain ⟨x, h1, h2⟩ := bind_eq_ok.mp hr
  cases h2
  unfold constrainedActivities at h1 ⊢
  obtain ⟨x', h3, -⟩ := mapE_perm (h.perm.flatMap_right _) h1
  rw [h3, ebind_ok]
  refine ⟨_, rfl, h.map fun _ => rfl, List.forall₂_map_right_iff.mpr (List.forall₂_same.mpr fun d _ => .mapExchanges (fun e => ?_) d)⟩
  unfold dropLink
  split
  · exact ⟨rfl, fun _ h => by cases h⟩
  · exact ⟨rfl, fun _ h => h⟩

theorem perm_alternative : PermFn ensureAlternativeProduction := by
  intro l l' r hp h
  unfold ensureAlternativeProduction at h ⊢
  split at h
  · next hc =>
    cases h
    have hn : ∀ t, (namesOfType t l).Perm (namesOfType t l') := fun t => hp.flatMap_right _
    refine ⟨l', if_pos ?_, hp⟩
    rw [List.all_eq_true] at hc ⊢
    intro n hnm
    have := hc n ((hn _).mem_iff.mpr hnm)
    simp only [List.contains_iff_mem] at this ⊢
    exact (hn _).mem_iff.mp this
  · cases h

/-! ## Up to the codes -/

theorem run_single {P : PipelineEnv} {s : Step} {g : List Dataset → Except Err (List Dataset)} (hg : s.run P = onDatasets g) {items out : List Item} :
    foldE (fun d (s : Step) => s.run P d) items [s] = .ok out ↔ ∃ l r, items = l.map .ds ∧ g l = .ok r ∧ out = r.map .ds := by
  simp only [foldE, hg]
  constructor
  · intro h
    obtain ⟨m, h1, h2⟩ := bind_eq_ok.mp h
    cases h2
    obtain ⟨l, r, h3, h4, h5⟩ := onDatasets_ok h1
    exact ⟨l, r, h3, h4, h5⟩
  · rintro ⟨l, r, rfl, h1, rfl⟩
    exact bind_eq_ok.mpr ⟨_, onDatasets_map.mpr ⟨r, h1, rfl⟩, rfl⟩

theorem items_inj {a b : List Dataset} (h : a.map Item.ds = b.map Item.ds) : a = b := List.map_injective_iff.mpr (fun x y hxy => by cases hxy; rfl) h

theorem run_binds (P : PipelineEnv) : ∀ {steps : List Step}, (∀ s ∈ steps, s ∈ consequentialStart) → ∀ {a r : List Dataset},
    foldE (fun d (s : Step) => s.run P d) (a.map .ds) steps = .ok (r.map .ds) → List.Forall₂ Bound a r
  | [], _, a, r, h => by
    have := items_inj (Except.ok.inj h)
    subst this
    exact List.forall₂_same.mpr fun d _ => .refl d
  | s :: steps, hs, a, r, h => by
    simp only [foldE] at h
    obtain ⟨m, h1, h2⟩ := bind_eq_ok.mp h
    obtain ⟨g, hg, hb⟩ := start_binds P (hs s (by simp))
    rw [hg] at h1
    obtain ⟨x, h3, rfl⟩ := onDatasets_map.mp h1
    exact forall₂_trans' (hb a x h3) (run_binds P (fun t ht => hs t (by simp [ht])) h2) fun _ _ _ => Bound.trans

theorem split_bound {P : PipelineEnv} {d : Dataset} {l : List Dataset} (h : (do let keep ← (Except.ok (multiRp d) : Except Err Bool); if keep then combinedProduction P.M P.F P.ord d else .ok [d]) = .ok l)
    {x : Dataset} (hx : x ∈ l) : Bound d x := by
  simp only [ebind_ok] at h
  split at h
  · exact combined_bound h hx
  · cases h
    rw [List.mem_singleton.mp hx]
    exact .refl d

/-- Up to the codes, the consequential model gives the same datasets for the same datasets. -/
theorem consequential_codes_perm (P : PipelineEnv) {data data' coded : List Dataset} (hp : data.Perm data') (ho : OwnTargetsById data) (hn : NameType coded)
    (h : foldE (fun d (s : Step) => s.run P d) (data.map .ds) (consequentialBefore ++ [.addUniqueCodes]) = .ok (coded.map .ds)) :
    ∃ coded', foldE (fun d (s : Step) => s.run P d) (data'.map .ds) (consequentialBefore ++ [.addUniqueCodes]) = .ok (coded'.map .ds) ∧ coded.Perm coded' := by
  have hsplit : consequentialBefore ++ [Step.addUniqueCodes] = [.ensureIdsAreUnique] ++ (consequentialStart.drop 1 ++ ([.splitCombinedProduction] ++ ([.deleteLinksToConstrained] ++
      ([.handleConstrainedMarkets] ++ ([.ensureAlternativeProduction] ++ ([.labelReferenceProduct, .deleteWhitelistedMarkets, .assignFakePv] ++ ([.relabelGlobalToRow] ++ [.addUniqueCodes]))))))) := by
    decide +kernel
  rw [hsplit] at h ⊢
  obtain ⟨i1, h1, h⟩ := foldE_split.mp h
  obtain ⟨a, a1, ha, g1, hi1⟩ := (run_single rfl).mp h1
  have := items_inj ha
  subst this
  have hids := ids_nodup g1
  have ha1 : a1 = data := by
    unfold ensureIdsAreUnique at g1
    split at g1
    · cases g1
    · cases g1; rfl
  subst ha1
  subst hi1
  obtain ⟨b1, k1, p1⟩ := perm_ids a1 data' a1 hp g1
  obtain ⟨i2, h2, h⟩ := foldE_split.mp h
  obtain ⟨a2, b2, rfl, k2, p2, parts⟩ := early_run P (by decide) hids p1 h2
  have bound2 : List.Forall₂ Bound a1 a2 := run_binds P (by decide) h2
  have ids2 : (a2.map (·.id)).Nodup := by rw [parts_ids parts]; exact hids
  have own2 : OwnTargetsById a2 := bound_own ho fun d' hd' => forall₂_mem_right bound2 hd'
  obtain ⟨i3, h3, h⟩ := foldE_split.mp h
  obtain ⟨x3, a3, hx3, g3, rfl⟩ := (run_single rfl).mp h3
  have := items_inj hx3
  subst this
  obtain ⟨b3, k3, p3⟩ := idSame_flatMapE (fun d l hl x hx => (split_bound (P := P) hl hx).id) ids2 p2 g3
  have own3 : OwnTargetsById a3 := bound_own own2 fun d' hd' => by
    obtain ⟨d, hd, l, hl, hm⟩ := flatMapE_mem g3 hd'
    exact ⟨d, hd, split_bound hl hm⟩
  obtain ⟨i4, h4, h⟩ := foldE_split.mp h
  obtain ⟨x4, a4, hx4, g4, rfl⟩ := (run_single rfl).mp h4
  have := items_inj hx4
  subst this
  obtain ⟨b4, k4, p4, bound4⟩ := perm_deleteLinks p3 g4
  have own4 : OwnTargetsById a4 := bound_own own3 fun d' hd' => forall₂_mem_right bound4 hd'
  obtain ⟨i5, h5, h⟩ := foldE_split.mp h
  obtain ⟨x5, a5, hx5, g5, rfl⟩ := (run_single rfl).mp h5
  have := items_inj hx5
  subst this
  obtain ⟨b5, k5, p5⟩ := perm_constrained p4 own4 g5
  obtain ⟨i6, h6, h⟩ := foldE_split.mp h
  obtain ⟨x6, a6, hx6, g6, rfl⟩ := (run_single rfl).mp h6
  have := items_inj hx6
  subst this
  obtain ⟨b6, k6, p6⟩ := perm_alternative _ b5 a6 p5.perm g6
  obtain ⟨i7, h7, h⟩ := foldE_split.mp h
  obtain ⟨j7, k7, p7⟩ := middle_run P (by decide) _ _ _ (p6.map Item.ds) h7
  obtain ⟨i8, h8, h9⟩ := foldE_split.mp h
  obtain ⟨a7, a8, rfl, g8, rfl⟩ := (run_single rfl).mp h8
  obtain ⟨b7, rfl, q7⟩ := items_perm p7
  obtain ⟨x9, a9, hx9, g9, hc⟩ := (run_single rfl).mp h9
  have := items_inj hx9
  subst this
  have := items_inj hc
  subst this
  have hnt : NameType a7 := nameType_congr (namesTypes_relabel g8) (nameType_congr (namesTypes_codes g9) hn)
  obtain ⟨b8, k8, p8⟩ := perm_relabel hnt q7 g8
  obtain ⟨b9, k9, p9⟩ := perm_codes _ _ _ _ _ p8 g9
  refine ⟨b9, ?_, p9⟩
  exact foldE_split.mpr ⟨_, (run_single rfl).mpr ⟨_, _, rfl, k1, rfl⟩, foldE_split.mpr ⟨_, k2, foldE_split.mpr ⟨_, (run_single rfl).mpr ⟨_, _, rfl, k3, rfl⟩,
    foldE_split.mpr ⟨_, (run_single rfl).mpr ⟨_, _, rfl, k4, rfl⟩, foldE_split.mpr ⟨_, (run_single rfl).mpr ⟨_, _, rfl, k5, rfl⟩, foldE_split.mpr ⟨_, (run_single rfl).mpr ⟨_, _, rfl, k6, rfl⟩,
    foldE_split.mpr ⟨_, k7, foldE_split.mpr ⟨_, (run_single rfl).mpr ⟨_, _, rfl, k8, rfl⟩, (run_single rfl).mpr ⟨_, _, rfl, k9, rfl⟩⟩⟩⟩⟩⟩⟩⟩⟩

end Ocelot
