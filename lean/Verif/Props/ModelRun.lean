import Verif.Props.Framework

/-! # Properties C62, C64, C79: model runs, reports and log files -/

namespace Ocelot

namespace Spec

variable {α : Type}

/-- The functions have names, and applied one after another they take `states 0` to `states 1`, then to `states 2`, and so on. -/
def Succeeds (fs : List (Fn α)) (states : ℕ → List α) : Prop :=
  ∀ (i : ℕ) (f : Fn α), fs[i]? = some f → f.name.isSome ∧ (f.run (states i)).2 = .ok (states (i + 1))

/-- What function number `i` leaves in the log: its start with the number of datasets before, its own entries, its end with the number of datasets after. -/
def recordsOf (states : ℕ → List α) (p : Fn α × ℕ) : List Record :=
  .functionStart p.2 (p.1.name.getD "") p.1.table (states p.2).length :: ((p.1.run (states p.2)).1.map .entry ++ [.functionEnd p.2 (p.1.name.getD "") p.1.table (states (p.2 + 1)).length])

/-- The log of functions that all succeed; functions are numbered from 0. -/
def functionRecords (fs : List (Fn α)) (states : ℕ → List α) : List Record := fs.zipIdx.flatMap (recordsOf states)

/-- The intermediate results that are saved: exactly those the strategy chooses. -/
def intermediate (save : ℕ → Bool) (fs : List (Fn α)) (states : ℕ → List α) : List (Saved α) :=
  (fs.zipIdx.filter fun p => save p.2).map fun p => ⟨some p.2, p.1.name, states (p.2 + 1)⟩

/-- The followed datasets after each function that has some. -/
def followedData (follow : Option (α → Bool)) (fs : List (Fn α)) (states : ℕ → List α) : List (ℕ × List α) :=
  match follow with
  | none => []
  | some t => (fs.zipIdx.map fun p => (p.2, (states (p.2 + 1)).filter t)).filter fun p => !p.2.isEmpty

/-- Every function logs only the kind of entries that it declares. -/
def Declared (fs : List (Fn α)) (states : ℕ → List α) : Prop :=
  ∀ (i : ℕ) (f : Fn α), fs[i]? = some f → ∀ e ∈ (f.run (states i)).1, e.isTable = f.table

/-- The report's entries for functions whose records start at line `n` of the log. -/
def functionReports (clock : ℕ → ℚ) (states : ℕ → List α) : ℕ → List (Fn α × ℕ) → List (ℕ × FnReport)
  | _, [] => []
  | n, (f, i) :: l =>
    let m := n + 1 + (f.run (states i)).1.length
    (i, { start := clock n, rows := { isTable := f.table, rows := (f.run (states i)).1.map (·.data) }, fin := some { time := clock m - clock n, finish := clock m, count := (states (i + 1)).length, name := f.name.getD "", table := f.table } }) ::
      functionReports clock states (m + 1) l

end Spec

open Spec

variable {α : Type}

/-! ## C62 -/

theorem applyItems_fns (cfg : Settings α) (fs : List (Fn α)) (rest : List (FnItem (Fn α))) (states : ℕ → List α) (s : Run α)
    (h : ∀ (i : ℕ) (f : Fn α), fs[i]? = some f → f.name.isSome ∧ (f.run (states (s.index + i))).2 = .ok (states (s.index + i + 1))) :
    applyItems cfg s (states s.index) (fs.map .fn ++ rest) =
      applyItems cfg { index := s.index + fs.length, log := s.log ++ (fs.zipIdx s.index).flatMap (recordsOf states), saved := s.saved ++ ((fs.zipIdx s.index).filter fun p => cfg.save p.2).map fun p => ⟨some p.2, p.1.name, states (p.2 + 1)⟩, followed := s.followed ++ (fs.zipIdx s.index).flatMap fun p => followStep cfg p.2 (states (p.2 + 1)) } (states (s.index + fs.length)) rest := by
  induction fs generalizing s with
  | nil => simp
  | cons f fs ih =>
    obtain ⟨hn, hr⟩ := h 0 f rfl
    obtain ⟨name, hname⟩ := Option.isSome_iff_exists.mp hn
    rw [List.map_cons, List.cons_append, applyItems]
    have hleaf : applyItem cfg s (states s.index) (.fn f) = ({ index := s.index + 1, log := s.log ++ recordsOf states (f, s.index), saved := s.saved ++ saveStep cfg s.index name (states (s.index + 1)), followed := s.followed ++ followStep cfg s.index (states (s.index + 1)) }, .ok (states (s.index + 1))) := by
      unfold applyItem applyLeaf
      simp only [Nat.add_zero] at hr
      simp only [hname, hr, recordsOf, Option.getD_some, List.append_assoc, List.cons_append, List.nil_append]
    rw [hleaf]
    simp only
    have hih := ih { index := s.index + 1, log := s.log ++ recordsOf states (f, s.index), saved := s.saved ++ saveStep cfg s.index name (states (s.index + 1)), followed := s.followed ++ followStep cfg s.index (states (s.index + 1)) } (by
      intro i g hg
      have := h (i + 1) g hg
      simp only
      rw [show s.index + 1 + i = s.index + (i + 1) by omega]
      exact this)
    simp only at hih
    rw [hih]
    have hsave : saveStep cfg s.index name (states (s.index + 1)) ++ ((fs.zipIdx (s.index + 1)).filter fun p => cfg.save p.2).map (fun p => (⟨some p.2, p.1.name, states (p.2 + 1)⟩ : Saved α)) =
        (((f :: fs).zipIdx s.index).filter fun p => cfg.save p.2).map fun p => ⟨some p.2, p.1.name, states (p.2 + 1)⟩ := by
      unfold saveStep
      rw [List.zipIdx_cons, List.filter_cons]
      by_cases hs : cfg.save s.index = true
      · rw [if_pos hs, if_pos hs, List.map_cons, hname]
        rfl
      · rw [if_neg hs, if_neg hs]
        rfl
    rw [← hsave]
    simp only [List.zipIdx_cons, List.flatMap_cons, List.append_assoc, List.length_cons]
    rw [show s.index + 1 + fs.length = s.index + (fs.length + 1) by omega]

theorem followed_eq (cfg : Settings α) (fs : List (Fn α)) (states : ℕ → List α) :
    (fs.zipIdx.flatMap fun p => followStep cfg p.2 (states (p.2 + 1))) = followedData cfg.follow fs states := by
  unfold followStep followedData
  rcases cfg.follow with _ | t
  · simp
  · simp only
    generalize fs.zipIdx = l
    induction l with
    | nil => rfl
    | cons p l ih =>
      rw [List.flatMap_cons, ih, List.map_cons, List.filter_cons]
      by_cases h : (states (p.2 + 1)).filter t = []
      · rw [if_pos h, h]; rfl
      · rw [if_neg h, if_pos (by simpa using h)]; rfl

/-- The state after the first functions. -/
def Spec.afterFunctions (uuid : String) (cfg : Settings α) (fs : List (Fn α)) (states : ℕ → List α) : Run α :=
  { index := fs.length, log := .reportStart uuid (states 0).length :: functionRecords fs states, saved := intermediate cfg.save fs states, followed := followedData cfg.follow fs states }

theorem applyItems_prefix (uuid : String) (cfg : Settings α) (fs : List (Fn α)) (rest : List (FnItem (Fn α))) (states : ℕ → List α) (h : Succeeds fs states) :
    applyItems cfg ⟨0, [.reportStart uuid (states 0).length], [], []⟩ (states 0) (fs.map .fn ++ rest) =
      applyItems cfg (afterFunctions uuid cfg fs states) (states fs.length) rest := by
  have := applyItems_fns cfg fs rest states ⟨0, [.reportStart uuid (states 0).length], [], []⟩ (by
    intro i f hf
    simpa using h i f hf)
  simp only at this
  rw [this, followed_eq]
  simp only [afterFunctions, functionRecords, intermediate, Nat.zero_add, List.nil_append, List.cons_append]

/-! ### Reading the log -/

theorem stamped_eq (clock : ℕ → ℚ) (log : List Record) : stamped clock log = (log.zipIdx 0).map fun p => (clock p.2, p.1) := rfl

theorem foldE_append_eq {β σ : Type} (f : σ → β → Except Err σ) (s : σ) (l₁ l₂ : List β) :
    foldE f s (l₁ ++ l₂) = (foldE f s l₁).bind fun t => foldE f t l₂ := by
  induction l₁ generalizing s with
  | nil => rfl
  | cons a l ih =>
    rw [List.cons_append]
    show ((f s a).bind fun t => foldE f t (l ++ l₂)) = ((f s a).bind fun t => foldE f t l).bind _
    rcases f s a with e | t
    · rfl
    · exact ih t

/-- Entries of the declared kind are appended to the rows of the current function. -/
theorem fold_entries (clock : ℕ → ℚ) (es : List Entry) (i n : ℕ) (fns : List (ℕ × FnReport)) (hi : ∀ p ∈ fns, p.1 ≠ i) (r : FnReport) (s : RepState)
    (hidx : s.index = some i) (hfns : s.functions = fns ++ [(i, r)]) (hk : ∀ e ∈ es, e.isTable = r.rows.isTable) :
    foldE handleLine s (((es.map Record.entry).zipIdx n).map fun p => (clock p.2, p.1)) =
      .ok { s with functions := fns ++ [(i, { r with rows := { r.rows with rows := r.rows.rows ++ es.map (·.data) } })] } := by
  induction es generalizing n r s with
  | nil =>
    simp only [List.map_nil, List.zipIdx_nil, foldE, List.append_nil]
    rw [← hfns]
  | cons e es ih =>
    rw [List.map_cons, List.zipIdx_cons, List.map_cons, foldE]
    have hlook : (fns ++ [(i, r)]).lookup i = some r := by
      clear ih hfns
      induction fns with
      | nil => simp
      | cons p fns ih2 =>
        rw [List.cons_append, List.lookup]
        have : (i == p.1) = false := by
          rw [beq_eq_false_iff_ne]
          exact fun h => hi p (by simp) h.symm
        rw [this]
        exact ih2 fun q hq => hi q (by simp [hq])
    have hset : ∀ v : FnReport, dictSet i v (fns ++ [(i, r)]) = fns ++ [(i, v)] := by
      intro v
      clear ih hfns hlook
      induction fns with
      | nil => simp [dictSet]
      | cons p fns ih2 =>
        rw [List.cons_append, dictSet, if_neg (hi p (by simp)), ih2 fun q hq => hi q (by simp [hq])]
        rfl
    have hstep : handleLine s (clock n, .entry e) = .ok { s with functions := fns ++ [(i, { r with rows := { r.rows with rows := r.rows.rows ++ [e.data] } })] } := by
      unfold handleLine RepState.current FnReport.addRow
      simp only [hidx, hfns, hlook, ebind_ok, if_pos (hk e (by simp)).symm, hset, epure]
    rw [hstep]
    simp only [ebind_ok]
    have hih := ih (n + 1) { r with rows := { r.rows with rows := r.rows.rows ++ [e.data] } } { s with functions := fns ++ [(i, { r with rows := { r.rows with rows := r.rows.rows ++ [e.data] } })] } hidx rfl (fun x hx => hk x (by simp [hx]))
    refine hih.trans ?_
    simp [List.append_assoc]

theorem lookup_append_new {β : Type} (fns : List (ℕ × β)) (i : ℕ) (v : β) (hi : ∀ p ∈ fns, p.1 ≠ i) : (fns ++ [(i, v)]).lookup i = some v := by
  induction fns with
  | nil => simp
  | cons p fns ih =>
    rw [List.cons_append, List.lookup]
    have : (i == p.1) = false := by
      rw [beq_eq_false_iff_ne]
      exact fun h => hi p (by simp) h.symm
    rw [this]
    exact ih fun q hq => hi q (by simp [hq])

theorem dictSet_append_new {β : Type} (fns : List (ℕ × β)) (i : ℕ) (v w : β) (hi : ∀ p ∈ fns, p.1 ≠ i) : dictSet i w (fns ++ [(i, v)]) = fns ++ [(i, w)] := by
  induction fns with
  | nil => simp [dictSet]
  | cons p fns ih =>
    rw [List.cons_append, dictSet, if_neg (hi p (by simp)), ih fun q hq => hi q (by simp [hq])]
    rfl

theorem dictSet_new {β : Type} (fns : List (ℕ × β)) (i : ℕ) (w : β) (hi : ∀ p ∈ fns, p.1 ≠ i) : dictSet i w fns = fns ++ [(i, w)] := by
  induction fns with
  | nil => simp [dictSet]
  | cons p fns ih =>
    rw [dictSet, if_neg (hi p (by simp)), ih fun q hq => hi q (by simp [hq])]
    rfl

theorem fold_functions (clock : ℕ → ℚ) (states : ℕ → List α) (l : List (Fn α × ℕ)) (n : ℕ) (s : RepState) (cs : List (String × ℕ)) (ts : List (String × ℚ))
    (hcs : s.counts = some cs) (hts : s.times = some ts) (hnew : ∀ p ∈ s.functions, ∀ q ∈ l, p.1 ≠ q.2) (hd : (l.map (·.2)).Nodup)
    (hk : ∀ q ∈ l, ∀ e ∈ (q.1.run (states q.2)).1, e.isTable = q.1.table) :
    ∃ idx, foldE handleLine s (((l.flatMap (recordsOf states)).zipIdx n).map fun p => (clock p.2, p.1)) =
      .ok { counts := some (cs ++ l.map fun q => (q.1.name.getD "", (states (q.2 + 1)).length)), times := some (ts ++ (functionReports clock states n l).filterMap fun p => p.2.fin.map fun f => (f.name, f.finish)), functions := s.functions ++ functionReports clock states n l, index := idx } := by
  induction l generalizing n s cs ts with
  | nil =>
    refine ⟨s.index, ?_⟩
    simp only [List.flatMap_nil, List.zipIdx_nil, List.map_nil, foldE, functionReports, List.filterMap_nil, List.append_nil, ← hcs, ← hts]
  | cons q l ih =>
    obtain ⟨f, i⟩ := q
    have hi : ∀ p ∈ s.functions, p.1 ≠ i := fun p hp => hnew p hp (f, i) (by simp)
    rw [List.flatMap_cons]
    rw [show recordsOf states (f, i) = .functionStart i (f.name.getD "") f.table (states i).length :: ((f.run (states i)).1.map .entry ++ [.functionEnd i (f.name.getD "") f.table (states (i + 1)).length]) from rfl]
    rw [List.cons_append, List.zipIdx_cons, List.map_cons, foldE]
    rw [show handleLine s (clock n, .functionStart i (f.name.getD "") f.table (states i).length) = .ok { s with index := some i, functions := s.functions ++ [(i, ⟨clock n, ⟨f.table, []⟩, none⟩)] } by
      unfold handleLine
      simp only [dictSet_new _ _ _ hi]]
    simp only [ebind_ok]
    rw [List.append_assoc, List.zipIdx_append, List.map_append, foldE_append_eq]
    have hent := fold_entries clock (f.run (states i)).1 i (n + 1) s.functions hi ⟨clock n, ⟨f.table, []⟩, none⟩ { s with index := some i, functions := s.functions ++ [(i, ⟨clock n, ⟨f.table, []⟩, none⟩)] } rfl rfl (fun e he => hk (f, i) (by simp) e he)
    rw [hent]
    simp only [Except.bind, List.length_map, List.nil_append]
    rw [List.cons_append, List.nil_append, List.zipIdx_cons, List.map_cons, foldE]
    have hend : handleLine { s with index := some i, functions := s.functions ++ [(i, ⟨clock n, ⟨f.table, (f.run (states i)).1.map (·.data)⟩, none⟩)] } (clock (n + 1 + (f.run (states i)).1.length), .functionEnd i (f.name.getD "") f.table (states (i + 1)).length) =
        .ok { counts := some (cs ++ [(f.name.getD "", (states (i + 1)).length)]), times := some (ts ++ [(f.name.getD "", clock (n + 1 + (f.run (states i)).1.length))]), functions := s.functions ++ [(i, ⟨clock n, ⟨f.table, (f.run (states i)).1.map (·.data)⟩, some ⟨clock (n + 1 + (f.run (states i)).1.length) - clock n, clock (n + 1 + (f.run (states i)).1.length), (states (i + 1)).length, f.name.getD "", f.table⟩⟩)], index := some i } := by
      unfold handleLine RepState.current getKey
      simp only [hcs, hts, ebind_ok, lookup_append_new _ _ _ hi, dictSet_append_new _ _ _ _ hi, epure]
    rw [hend]
    simp only [ebind_ok]
    obtain ⟨idx, hidx⟩ := ih (n + 1 + (f.run (states i)).1.length + 1) { counts := some (cs ++ [(f.name.getD "", (states (i + 1)).length)]), times := some (ts ++ [(f.name.getD "", clock (n + 1 + (f.run (states i)).1.length))]), functions := s.functions ++ [(i, ⟨clock n, ⟨f.table, (f.run (states i)).1.map (·.data)⟩, some ⟨clock (n + 1 + (f.run (states i)).1.length) - clock n, clock (n + 1 + (f.run (states i)).1.length), (states (i + 1)).length, f.name.getD "", f.table⟩⟩)], index := some i } _ _ rfl rfl (by
      intro p hp q hq
      rcases List.mem_append.mp hp with h | h
      · exact hnew p h q (by simp [hq])
      · rw [List.mem_singleton.mp h]
        intro he
        rw [List.map_cons, List.nodup_cons] at hd
        exact hd.1 (List.mem_map.mpr ⟨q, hq, he.symm⟩)) (by
      rw [List.map_cons, List.nodup_cons] at hd
      exact hd.2) (fun q hq => hk q (by simp [hq]))
    refine ⟨idx, hidx.trans ?_⟩
    simp only [functionReports, List.map_cons, List.filterMap_cons, Option.map_some, List.append_assoc, List.cons_append, List.nil_append]

theorem functionReports_sorted (clock : ℕ → ℚ) (states : ℕ → List α) (fs : List (Fn α)) (n k : ℕ) :
    (functionReports clock states n (fs.zipIdx k)).Pairwise (fun a b => a.1 ≤ b.1) ∧ ∀ p ∈ functionReports clock states n (fs.zipIdx k), k ≤ p.1 := by
  induction fs generalizing n k with
  | nil => simp [functionReports]
  | cons f fs ih =>
    rw [List.zipIdx_cons]
    simp only [functionReports, List.pairwise_cons, List.mem_cons]
    obtain ⟨h1, h2⟩ := ih (n + 1 + (f.run (states k)).1.length + 1) (k + 1)
    refine ⟨⟨fun p hp => ?_, h1⟩, ?_⟩
    · have := h2 p hp
      show k ≤ p.1
      omega
    · rintro p (rfl | hp)
      · exact le_refl k
      · have := h2 p hp
        omega

/-- The report of a run: what `readLog` makes of a complete log. -/
def Spec.fullReport (clock : ℕ → ℚ) (fs : List (Fn α)) (states : ℕ → List α) : Report :=
  let last := clock (1 + (functionRecords fs states).length)
  { elapsed := last - clock 0
    counts := (states 0).length :: fs.zipIdx.map fun q => (states (q.2 + 1)).length
    times := 0 :: (((functionReports clock states 1 fs.zipIdx).filterMap fun p => p.2.fin.map fun f => f.finish - clock 0) ++ [last - clock 0])
    functions := functionReports clock states 1 fs.zipIdx }

theorem zipIdx_snd_nodup {β : Type} (l : List β) (k : ℕ) : ((l.zipIdx k).map (·.2)).Nodup := by
  rw [List.zipIdx_map_snd]
  exact List.nodup_range'

theorem declared_zipIdx {fs : List (Fn α)} {states : ℕ → List α} (h : Declared fs states) :
    ∀ q ∈ fs.zipIdx, ∀ e ∈ (q.1.run (states q.2)).1, e.isTable = q.1.table := by
  intro q hq e he
  obtain ⟨f, i⟩ := q
  rw [List.mem_zipIdx_iff_getElem?] at hq
  exact h i f hq e he

theorem readLog_full (clock : ℕ → ℚ) (uuid : String) (fs : List (Fn α)) (states : ℕ → List α) (h : Declared fs states) :
    readLog (stamped clock (.reportStart uuid (states 0).length :: functionRecords fs states ++ [.reportEnd])) = .ok (fullReport clock fs states) := by
  rw [stamped_eq, List.cons_append, List.zipIdx_cons, List.map_cons, List.zipIdx_append, List.map_append]
  unfold readLog
  rw [foldE]
  rw [show handleLine {} (clock 0, .reportStart uuid (states 0).length) = .ok { counts := some [("Start", (states 0).length)], times := some [("Start", clock 0)] } from rfl]
  simp only [ebind_ok]
  rw [foldE_append_eq]
  obtain ⟨idx, hidx⟩ := fold_functions clock states fs.zipIdx 1 { counts := some [("Start", (states 0).length)], times := some [("Start", clock 0)] } _ _ rfl rfl (by simp) (zipIdx_snd_nodup fs 0) (declared_zipIdx h)
  rw [show (0 + 1 : ℕ) = 1 from rfl]
  rw [functionRecords, hidx]
  simp only [Except.bind, List.zipIdx_cons, List.zipIdx_nil, List.map_cons, List.map_nil, foldE, handleLine, getKey, ebind_ok, epure]
  rw [List.getLast?_append]
  simp only [List.cons_append, List.nil_append, List.head?_cons, List.getLast?_singleton, Option.some_or, ebind_ok]
  simp only [fullReport, functionRecords]
  congr 2
  · simp
  · rw [List.map_cons, List.map_append, List.map_filterMap, sub_self]
    congr 2
    apply List.filterMap_congr
    intro p _
    rw [Option.map_map]
    rfl
  · unfold sortFunctions
    apply List.mergeSort_of_pairwise
    exact (functionReports_sorted clock states fs 1 0).1.imp (by simp)

/-! ### The whole run -/

/-- A configuration that is one list or one `Collection` of functions. -/
def Spec.FlatConfig (config : Config α) (fs : List (Fn α)) : Prop :=
  config = .item (.coll (fs.map .fn)) ∨ config = .item (.seq (fs.map .fn))

theorem unwrapAll_map_fn {F : Type} (fs : List F) : unwrapAll (fs.map FnItem.fn) = fs := by
  induction fs with
  | nil => rw [List.map_nil, unwrapAll]
  | cons f fs ih => rw [List.map_cons, unwrapAll, FnItem.unwrap, ih]; rfl

theorem systemModel_flat {S : Setup α} {config : Config α} {fs : List (Fn α)} (hc : FlatConfig config fs) (hne : fs ≠ []) (hn : ∀ f ∈ fs, f.name.isSome)
    (d : List α) (save : ℕ → Bool) (follow : Option (α → Bool)) :
    systemModel S config (.ok d) (.ok save) follow = runItems S ⟨save, follow⟩ (fs.map .fn) d := by
  have hall : (fs.map FnItem.fn).all FnItem.hasMeta = true := by
    rw [List.all_eq_true]
    intro a ha
    obtain ⟨f, hf, rfl⟩ := List.mem_map.mp ha
    exact hn f hf
  have hem : (fs.map (FnItem.fn (F := Fn α))).isEmpty = false := by
    rw [List.isEmpty_eq_false_iff]
    simpa using hne
  rcases hc with rfl | rfl
  · simp only [systemModel, chooseConfig, FnItem.isEmpty, hem, validateConfiguration, hall, Bool.false_eq_true, if_false, if_true]
  · simp only [systemModel, chooseConfig, FnItem.isEmpty, hem, validateConfiguration, Coll.new, unwrapAll_map_fn, hall, Bool.false_eq_true, if_false, if_true]

theorem succeeds_named {fs : List (Fn α)} {states : ℕ → List α} (h : Succeeds fs states) : ∀ f ∈ fs, f.name.isSome := by
  intro f hf
  obtain ⟨i, hi⟩ := List.mem_iff_getElem?.mp hf
  exact (h i f hi).1

/-- **C62**, success: functions that succeed are applied in order, each to what the one before returned; the log holds for each its start, its entries and its end
with the numbers of datasets before and after; exactly the chosen intermediate results are saved, then the final one; and the last data are returned. -/
theorem C62_run_partial (S : Setup α) {config : Config α} {fs : List (Fn α)} (hc : FlatConfig config fs) (hne : fs ≠ []) (states : ℕ → List α) (h : Succeeds fs states)
    (hd : Declared fs states) (save : ℕ → Bool) (follow : Option (α → Bool)) :
    systemModel S config (.ok (states 0)) (.ok save) follow =
      { files := some { index := fs.length, log := .reportStart S.uuid (states 0).length :: functionRecords fs states ++ [.reportEnd], saved := intermediate save fs states ++ [⟨none, none, states fs.length⟩], followed := followedData follow fs states }
        report := some (fullReport S.clock fs states)
        result := .ok (states fs.length) } := by
  rw [systemModel_flat hc hne (succeeds_named h)]
  have := applyItems_prefix S.uuid ⟨save, follow⟩ fs [] states h
  rw [List.append_nil] at this
  unfold runItems
  simp only [this]
  rw [applyItems]
  simp only [finishRun, afterFunctions]
  rw [readLog_full S.clock S.uuid fs states hd]

/-- **C62**, failure: if the functions before succeed and one raises an error, the log ends with that function's start and the entries it had written, what had been
saved before stays, no later function runs, no report is made, and the error is what the caller gets. -/
theorem C62_failure (S : Setup α) {config : Config α} {fs rest : List (Fn α)} {f : Fn α} {name : String} (hc : FlatConfig config (fs ++ f :: rest)) (states : ℕ → List α)
    (h : Succeeds fs states) (hname : f.name = some name) (hrest : ∀ g ∈ rest, g.name.isSome) {e : Err} (he : (f.run (states fs.length)).2 = .error (.raised e))
    (save : ℕ → Bool) (follow : Option (α → Bool)) :
    systemModel S config (.ok (states 0)) (.ok save) follow =
      { files := some { index := fs.length + 1, log := .reportStart S.uuid (states 0).length :: functionRecords fs states ++ (.functionStart fs.length name f.table (states fs.length).length :: (f.run (states fs.length)).1.map .entry), saved := intermediate save fs states, followed := followedData follow fs states }
        report := none
        result := .error (.raised e) } := by
  rw [systemModel_flat hc (by simp) (by
    intro g hg
    rcases List.mem_append.mp hg with hg | hg
    · exact succeeds_named h g hg
    · rcases List.mem_cons.mp hg with rfl | hg
      · rw [hname]; rfl
      · exact hrest g hg)]
  have := applyItems_prefix S.uuid ⟨save, follow⟩ fs ((f :: rest).map .fn) states h
  unfold runItems
  rw [List.map_append]
  simp only [this]
  rw [List.map_cons, applyItems]
  simp only [applyItem, applyLeaf, hname, he, afterFunctions, List.append_assoc, List.cons_append, List.nil_append]

/-- **C62**, interruption: a run stopped from the keyboard leaves no output directory. -/
theorem C62_interrupted (S : Setup α) {config : Config α} {fs rest : List (Fn α)} {f : Fn α} (hc : FlatConfig config (fs ++ f :: rest)) (states : ℕ → List α)
    (h : Succeeds fs states) (hname : f.name.isSome) (hrest : ∀ g ∈ rest, g.name.isSome) (he : (f.run (states fs.length)).2 = .error .interrupted)
    (save : ℕ → Bool) (follow : Option (α → Bool)) :
    systemModel S config (.ok (states 0)) (.ok save) follow = ⟨none, none, .error .interrupted⟩ := by
  obtain ⟨name, hname⟩ := Option.isSome_iff_exists.mp hname
  rw [systemModel_flat hc (by simp) (by
    intro g hg
    rcases List.mem_append.mp hg with hg | hg
    · exact succeeds_named h g hg
    · rcases List.mem_cons.mp hg with rfl | hg
      · rw [hname]; rfl
      · exact hrest g hg)]
  have := applyItems_prefix S.uuid ⟨save, follow⟩ fs ((f :: rest).map .fn) states h
  unfold runItems
  rw [List.map_append]
  simp only [this]
  rw [List.map_cons, applyItems]
  simp only [applyItem, applyLeaf, hname, he]

/-- **C62**, every flat configuration falls under one of the three cases above: its functions succeed up to the end or up to the first that stops. -/
theorem C62_cases (fs : List (Fn α)) (d : List α) (hn : ∀ f ∈ fs, f.name.isSome) :
    ∃ states, states 0 = d ∧ (Succeeds fs states ∨ ∃ done f rest stop, fs = done ++ f :: rest ∧ Succeeds done states ∧ (f.run (states done.length)).2 = .error stop) := by
  induction fs generalizing d with
  | nil => exact ⟨fun _ => d, rfl, .inl (by intro i f hf; simp at hf)⟩
  | cons f fs ih =>
    rcases hr : (f.run d).2 with stop | d'
    · exact ⟨fun _ => d, rfl, .inr ⟨[], f, fs, stop, rfl, by intro i f hf; simp at hf, hr⟩⟩
    · obtain ⟨states, h0, hs⟩ := ih d' fun g hg => hn g (by simp [hg])
      have lift : ∀ gs : List (Fn α), Succeeds gs states → Succeeds (f :: gs) (fun i => match i with | 0 => d | i + 1 => states i) := by
        intro gs hgs i g hg
        cases i with
        | zero =>
          have : f = g := by simpa using hg
          subst this
          exact ⟨hn f (by simp), by simp only [h0]; exact hr⟩
        | succ i => exact hgs i g (by simpa using hg)
      refine ⟨fun i => match i with | 0 => d | i + 1 => states i, rfl, ?_⟩
      rcases hs with hs | ⟨done, g, rest, stop, rfl, hd, hg⟩
      · exact .inl (lift fs hs)
      · exact .inr ⟨f :: done, g, rest, stop, rfl, lift done hd, hg⟩

/-- **C62**, what is missing: a configuration that holds a list inside passes validation, and fails with a `TypeError` when the run gets there, whatever the functions inside. -/
theorem C62_nested (S : Setup α) {fs : List (Fn α)} {inner rest : List (FnItem (Fn α))} (group : FnItem (Fn α)) (hg : group = .coll inner ∨ group = .seq inner) (hin : inner ≠ [])
    (hn : ∀ f ∈ unwrapAll (fs.map .fn ++ group :: rest), f.name.isSome) (states : ℕ → List α) (h : Succeeds fs states) (save : ℕ → Bool) (follow : Option (α → Bool)) :
    (systemModel S (.item (.seq (fs.map .fn ++ group :: rest))) (.ok (states 0)) (.ok save) follow).result = .error (.raised .typeError) := by
  obtain ⟨x, xs, rfl⟩ := List.exists_cons_of_ne_nil hin
  have hem : (fs.map (FnItem.fn (F := Fn α)) ++ group :: rest).isEmpty = false := by
    rw [List.isEmpty_eq_false_iff]; simp
  have hall : (Coll.new (fs.map (FnItem.fn (F := Fn α)) ++ group :: rest)).functions.all FnItem.hasMeta = true := by
    rw [List.all_eq_true]
    intro a ha
    obtain ⟨f, hf, rfl⟩ := List.mem_map.mp ha
    exact hn f hf
  simp only [systemModel, chooseConfig, FnItem.isEmpty, hem, validateConfiguration, hall, Bool.false_eq_true, if_false, if_true]
  unfold runItems
  have := applyItems_prefix S.uuid ⟨save, follow⟩ fs (group :: rest) states h
  simp only [this]
  rw [applyItems]
  rcases hg with rfl | rfl
  · simp only [applyItem]
  · simp only [applyItem]

/-- **C62**: a configuration with a function that has no name is rejected before the data are even read. -/
theorem C62_rejected (S : Setup α) {config : Config α} {fs : List (Fn α)} (hc : FlatConfig config fs) {f : Fn α} (hf : f ∈ fs) (hn : f.name = none)
    (extracted : Except Err (List α)) (strategy : Except Err (ℕ → Bool)) (follow : Option (α → Bool)) :
    systemModel S config extracted strategy follow = ⟨none, none, .error (.raised .invalidTransformationFunction)⟩ := by
  have hall : (fs.map FnItem.fn).all FnItem.hasMeta = false := by
    rw [List.all_eq_false]
    exact ⟨.fn f, List.mem_map_of_mem hf, by simp [FnItem.hasMeta, hn]⟩
  have hem : (fs.map (FnItem.fn (F := Fn α))).isEmpty = false := by
    rw [List.isEmpty_eq_false_iff]
    intro h
    rw [List.map_eq_nil_iff] at h
    simp [h] at hf
  rcases hc with rfl | rfl
  · simp only [systemModel, chooseConfig, FnItem.isEmpty, hem, validateConfiguration, hall, Bool.false_eq_true, if_false]
  · simp only [systemModel, chooseConfig, FnItem.isEmpty, hem, validateConfiguration, Coll.new, unwrapAll_map_fn, hall, Bool.false_eq_true, if_false]

/-- **C62**: an empty configuration is not an empty run: the default is run instead, as if none had been given. -/
theorem C62_empty_is_default (S : Setup α) {config : Config α} (hc : FlatConfig config []) (extracted : Except Err (List α)) (strategy : Except Err (ℕ → Bool))
    (follow : Option (α → Bool)) : systemModel S config extracted strategy follow = systemModel S .none extracted strategy follow := by
  rcases hc with rfl | rfl <;> rfl

/-- **C62**, configurations given as text: a text that names a configuration is that configuration, the empty text is the default unless it is a name itself, and any other
text is rejected before the data are even read. -/
theorem C62_text (S : Setup α) (s : String) (extracted : Except Err (List α)) (strategy : Except Err (ℕ → Bool)) (follow : Option (α → Bool)) :
    (∀ c, S.mapping s = some c → c.isEmpty = false → systemModel S (.text s) extracted strategy follow = systemModel S (.item c) extracted strategy follow) ∧
    (S.mapping s = none → s = "" → systemModel S (.text s) extracted strategy follow = systemModel S .none extracted strategy follow) ∧
    (S.mapping s = none → s ≠ "" → systemModel S (.text s) extracted strategy follow = ⟨none, none, .error (.raised .invalidTransformationFunction)⟩) := by
  refine ⟨fun c hc he => ?_, fun hm hs => ?_, fun hm hs => ?_⟩
  · simp only [systemModel, chooseConfig, hc, he, Bool.false_eq_true, if_false]
  · subst hs
    simp only [systemModel, chooseConfig, hm, if_true]
  · simp only [systemModel, chooseConfig, hm, hs, if_false]

/-- **C62**, a save strategy that cannot be read stops the run when the output directory exists and the log holds the start of the run, before any function is applied. -/
theorem C62_bad_strategy (S : Setup α) {config : Config α} {fs : List (Fn α)} (hc : FlatConfig config fs) (hne : fs ≠ []) (hn : ∀ f ∈ fs, f.name.isSome) (d : List α) (e : Err)
    (follow : Option (α → Bool)) :
    systemModel S config (.ok d) (.error e) follow = ⟨some ⟨0, [.reportStart S.uuid d.length], [], []⟩, none, .error (.raised e)⟩ := by
  have hall : (fs.map FnItem.fn).all FnItem.hasMeta = true := by
    rw [List.all_eq_true]
    intro a ha
    obtain ⟨f, hf, rfl⟩ := List.mem_map.mp ha
    exact hn f hf
  have hem : (fs.map (FnItem.fn (F := Fn α))).isEmpty = false := by
    rw [List.isEmpty_eq_false_iff]
    intro h
    exact hne (List.map_eq_nil_iff.mp h)
  rcases hc with rfl | rfl
  · simp only [systemModel, chooseConfig, FnItem.isEmpty, hem, validateConfiguration, hall, Bool.false_eq_true, if_false, if_true]
  · simp only [systemModel, chooseConfig, FnItem.isEmpty, hem, validateConfiguration, Coll.new, unwrapAll_map_fn, hall, Bool.false_eq_true, if_false, if_true]

/-- Function number one doubles the list, and logs a table row; number two drops the first dataset and logs text. -/
def Spec.exampleFns : List (Fn ℕ) :=
  [⟨some "double", true, fun d => ([⟨true, ["x"]⟩], .ok (d ++ d))⟩, ⟨some "drop", false, fun d => ([⟨false, ["y"]⟩, ⟨false, ["z"]⟩], .ok d.tail)⟩]

def Spec.exampleSetup : Setup ℕ := ⟨fun _ => none, .seq [], "uuid", fun n => n⟩

def Spec.exampleStates : ℕ → List ℕ
  | 0 => [5, 6]
  | 1 => [5, 6, 5, 6]
  | _ => [6, 5, 6]

theorem example_succeeds : Succeeds exampleFns exampleStates := by
  intro i f hf
  match i with
  | 0 => cases hf; exact ⟨rfl, rfl⟩
  | 1 => cases hf; exact ⟨rfl, rfl⟩
  | i + 2 => simp [exampleFns] at hf

theorem example_declared : Declared exampleFns exampleStates := by
  intro i f hf
  match i with
  | 0 => cases hf; decide
  | 1 => cases hf; decide
  | i + 2 => simp [exampleFns] at hf

example : (systemModel exampleSetup (.item (.seq (exampleFns.map .fn))) (.ok [5, 6]) (.ok fun i => i == 1) (some (· == 5))).files =
    some ⟨2, [.reportStart "uuid" 2, .functionStart 0 "double" true 2, .entry ⟨true, ["x"]⟩, .functionEnd 0 "double" true 4, .functionStart 1 "drop" false 4, .entry ⟨false, ["y"]⟩, .entry ⟨false, ["z"]⟩, .functionEnd 1 "drop" false 3, .reportEnd], [⟨some 1, some "drop", [6, 5, 6]⟩, ⟨none, none, [6, 5, 6]⟩], [(0, [5, 5]), (1, [5])]⟩ := by
  have := C62_run_partial exampleSetup (config := .item (.seq (exampleFns.map .fn))) (.inr rfl) (by decide) exampleStates example_succeeds example_declared (fun i => i == 1) (some (· == 5))
  rw [show exampleStates 0 = [5, 6] from rfl] at this
  rw [this]
  decide +kernel

/-- A function that fails after logging. -/
def Spec.exampleFailing : Fn ℕ := ⟨some "fail", false, fun _ => ([⟨false, ["before"]⟩], .error (.raised .zeroProduction))⟩

example (rest : List (Fn ℕ)) (h : ∀ g ∈ rest, g.name.isSome) :
    (systemModel exampleSetup (.item (.coll ((exampleFns ++ exampleFailing :: rest).map .fn))) (.ok [5, 6]) (.ok fun _ => false) none).result = .error (.raised .zeroProduction) := by
  rw [show [5, 6] = exampleStates 0 from rfl, C62_failure exampleSetup (.inl rfl) exampleStates example_succeeds rfl h rfl]

example : (systemModel exampleSetup (.item (.seq (exampleFns.map .fn ++ [.seq [.fn exampleFailing]]))) (.ok [5, 6]) (.ok fun _ => false) none).result =
    .error (.raised .typeError) :=
  C62_nested exampleSetup (rest := []) (.seq [.fn exampleFailing]) (.inr rfl) (by simp) (by
    rw [show unwrapAll (exampleFns.map .fn ++ [.seq [.fn exampleFailing]]) = exampleFns ++ [exampleFailing] by simp [exampleFns, unwrapAll, FnItem.unwrap]]
    decide) exampleStates example_succeeds _ _

/-! ## C64 -/

theorem functionReports_get (clock : ℕ → ℚ) (states : ℕ → List α) (fs : List (Fn α)) (n k i : ℕ) {f : Fn α} (hf : fs[i]? = some f) :
    ∃ r fin, (functionReports clock states n (fs.zipIdx k))[i]? = some (k + i, r) ∧ r.fin = some fin ∧ r.rows = ⟨f.table, (f.run (states (k + i))).1.map (·.data)⟩ ∧
      fin.count = (states (k + i + 1)).length ∧ fin.name = f.name.getD "" ∧ fin.table = f.table ∧ fin.time = fin.finish - r.start := by
  induction fs generalizing n k i with
  | nil => simp at hf
  | cons g fs ih =>
    rw [List.zipIdx_cons]
    simp only [functionReports]
    cases i with
    | zero =>
      have : g = f := by simpa using hf
      subst this
      exact ⟨_, _, rfl, rfl, rfl, rfl, rfl, rfl, rfl⟩
    | succ i =>
      obtain ⟨r, fin, h⟩ := ih (n + 1 + (g.run (states k)).1.length + 1) (k + 1) i (by simpa using hf)
      rw [show k + 1 + i = k + (i + 1) by omega] at h
      exact ⟨r, fin, by simpa using h⟩

theorem functionReports_length (clock : ℕ → ℚ) (states : ℕ → List α) (l : List (Fn α × ℕ)) (n : ℕ) : (functionReports clock states n l).length = l.length := by
  induction l generalizing n with
  | nil => rfl
  | cons q l ih =>
    simp only [functionReports, List.length_cons, ih]

/-- **C64**: the report of a run whose functions succeed and log what they declare lists exactly these functions, in order, each with the rows it logged and no others,
in the order in which it logged them, with its name, its kind, the number of datasets after it and the time between its start and its end; and the number of datasets
over the whole run. -/
theorem C64_report (S : Setup α) {config : Config α} {fs : List (Fn α)} (hc : FlatConfig config fs) (hne : fs ≠ []) (states : ℕ → List α) (h : Succeeds fs states)
    (hd : Declared fs states) (save : ℕ → Bool) (follow : Option (α → Bool)) :
    ∃ report, (systemModel S config (.ok (states 0)) (.ok save) follow).report = some report ∧ report.functions.length = fs.length ∧
      report.counts = (List.range (fs.length + 1)).map (fun i => (states i).length) ∧
      ∀ (i : ℕ) (f : Fn α), fs[i]? = some f → ∃ r fin, report.functions[i]? = some (i, r) ∧ r.fin = some fin ∧ r.rows = ⟨f.table, (f.run (states i)).1.map (·.data)⟩ ∧
        fin.count = (states (i + 1)).length ∧ some fin.name = f.name ∧ fin.table = f.table ∧ fin.time = fin.finish - r.start := by
  refine ⟨_, by rw [C62_run_partial S hc hne states h hd save follow], ?_, ?_, ?_⟩
  · simp only [fullReport, functionReports_length, List.length_zipIdx]
  · simp only [fullReport]
    rw [List.range_succ_eq_map, List.map_cons, List.map_map]
    congr 1
    rw [show (fun q : Fn α × ℕ => (states (q.2 + 1)).length) = (fun i => (states (i + 1)).length) ∘ (·.2) from rfl, ← List.map_map, List.zipIdx_map_snd, List.range_eq_range']
    rfl
  · intro i f hf
    obtain ⟨r, fin, h1, h2, h3, h4, h5, h6, h7⟩ := functionReports_get S.clock states fs 1 0 i hf
    rw [Nat.zero_add] at h1 h3 h4
    obtain ⟨name, hname⟩ := Option.isSome_iff_exists.mp (h i f hf).1
    exact ⟨r, fin, h1, h2, h3, h4, by rw [h5, hname]; rfl, h6, h7⟩

/-- Rows of the wrong kind stop the reading of a log. -/
theorem fold_entries_error (clock : ℕ → ℚ) (es : List Entry) (i n : ℕ) (fns : List (ℕ × FnReport)) (hi : ∀ p ∈ fns, p.1 ≠ i) (r : FnReport) (s : RepState)
    (hidx : s.index = some i) (hfns : s.functions = fns ++ [(i, r)]) (hk : ∃ e ∈ es, e.isTable ≠ r.rows.isTable) :
    foldE handleLine s (((es.map Record.entry).zipIdx n).map fun p => (clock p.2, p.1)) = .error .keyError := by
  obtain ⟨e, he, hne⟩ := hk
  obtain ⟨pre, x, post, rfl, hpre, hx⟩ : ∃ pre x post, es = pre ++ x :: post ∧ (∀ e ∈ pre, e.isTable = r.rows.isTable) ∧ x.isTable ≠ r.rows.isTable := by
    clear hidx hfns
    induction es with
    | nil => simp at he
    | cons a es ih =>
      by_cases ha : a.isTable = r.rows.isTable
      · have hes : e ∈ es := by
          rcases List.mem_cons.mp he with rfl | h
          · exact absurd ha hne
          · exact h
        obtain ⟨pre, x, post, rfl, h1, h2⟩ := ih hes
        refine ⟨a :: pre, x, post, rfl, ?_, h2⟩
        intro b hb
        rcases List.mem_cons.mp hb with rfl | hb
        · exact ha
        · exact h1 b hb
      · exact ⟨[], a, es, rfl, by simp, ha⟩
  rw [List.map_append, List.zipIdx_append, List.map_append, foldE_append_eq, fold_entries clock pre i n fns hi r s hidx hfns hpre, List.map_cons, List.zipIdx_cons, List.map_cons]
  simp only [Except.bind]
  rw [foldE]
  have : ¬ r.rows.isTable = x.isTable := fun h => hx h.symm
  unfold handleLine RepState.current FnReport.addRow
  simp only [hidx, lookup_append_new _ _ _ hi, ebind_ok, if_neg this, ebind_error]

/-- **C64**, the rest: if a function logs an entry of a kind that it does not declare, then the whole run ends with a `KeyError` and no report, although every function
succeeded and the final results are saved. -/
theorem C64_undeclared (S : Setup α) {config : Config α} {fs : List (Fn α)} (hc : FlatConfig config fs) (hne : fs ≠ []) (states : ℕ → List α) (h : Succeeds fs states)
    (hd : ¬ Declared fs states) (save : ℕ → Bool) (follow : Option (α → Bool)) :
    ∃ run, systemModel S config (.ok (states 0)) (.ok save) follow = ⟨some run, none, .error (.raised .keyError)⟩ ∧ ⟨none, none, states fs.length⟩ ∈ run.saved := by
  rw [systemModel_flat hc hne (succeeds_named h)]
  have := applyItems_prefix S.uuid ⟨save, follow⟩ fs [] states h
  rw [List.append_nil] at this
  unfold runItems
  simp only [this]
  rw [applyItems]
  simp only [finishRun, afterFunctions]
  suffices hlog : readLog (stamped S.clock (.reportStart S.uuid (states 0).length :: functionRecords fs states ++ [.reportEnd])) = .error .keyError by
    rw [hlog]
    exact ⟨_, rfl, by simp⟩
  obtain ⟨i, f, hf, hnd, hbefore⟩ : ∃ (i : ℕ) (f : Fn α), fs[i]? = some f ∧ (∃ e ∈ (f.run (states i)).1, e.isTable ≠ f.table) ∧ Declared (fs.take i) states := by
    unfold Declared at hd
    push Not at hd
    classical
    have hex : ∃ i, ∃ f : Fn α, fs[i]? = some f ∧ ∃ e ∈ (f.run (states i)).1, e.isTable ≠ f.table := hd
    obtain ⟨f, hf, hx⟩ := Nat.find_spec hex
    refine ⟨Nat.find hex, f, hf, hx, ?_⟩
    intro j g hg e he
    by_contra hne'
    rcases Nat.lt_or_ge j (Nat.find hex) with hj | hj
    · rw [List.getElem?_take_of_lt hj] at hg
      exact Nat.find_min hex hj ⟨g, hg, e, he, hne'⟩
    · rw [List.getElem?_take_eq_none (by omega)] at hg
      exact absurd hg (by simp)
  have hsplit : fs = fs.take i ++ f :: fs.drop (i + 1) := by
    obtain ⟨hlt, hget⟩ := List.getElem?_eq_some_iff.mp hf
    rw [← hget, ← List.drop_eq_getElem_cons hlt, List.take_append_drop]
  have hlen : (fs.take i).length = i := by
    obtain ⟨hlt, _⟩ := List.getElem?_eq_some_iff.mp hf
    rw [List.length_take]; omega
  generalize fs.drop (i + 1) = rest at hsplit
  generalize fs.take i = done at hsplit hbefore hlen
  rw [hsplit, functionRecords, List.zipIdx_append, List.flatMap_append, List.zipIdx_cons, List.flatMap_cons, Nat.zero_add, hlen]
  rw [show recordsOf states (f, i) = .functionStart i (f.name.getD "") f.table (states i).length :: ((f.run (states i)).1.map .entry ++ [.functionEnd i (f.name.getD "") f.table (states (i + 1)).length]) from rfl]
  generalize List.flatMap (recordsOf states) (rest.zipIdx (i + 1)) = tail
  rw [stamped_eq, List.cons_append, List.zipIdx_cons, List.map_cons, List.append_assoc, List.zipIdx_append, List.map_append]
  unfold readLog
  rw [foldE]
  rw [show handleLine {} (S.clock 0, .reportStart S.uuid (states 0).length) = .ok { counts := some [("Start", (states 0).length)], times := some [("Start", S.clock 0)] } from rfl]
  simp only [ebind_ok]
  rw [foldE_append_eq]
  obtain ⟨idx, hidx⟩ := fold_functions S.clock states done.zipIdx 1 { counts := some [("Start", (states 0).length)], times := some [("Start", S.clock 0)] } _ _ rfl rfl (by simp) (zipIdx_snd_nodup done 0) (declared_zipIdx hbefore)
  rw [show (0 + 1 : ℕ) = 1 from rfl, hidx]
  simp only [Except.bind, List.cons_append, List.append_assoc, List.nil_append]
  rw [List.zipIdx_cons, List.map_cons, foldE]
  have hi : ∀ p ∈ functionReports S.clock states 1 done.zipIdx, p.1 ≠ i := by
    intro p hp
    obtain ⟨j, hj⟩ := List.mem_iff_getElem?.mp hp
    have hjl : j < done.length := by
      have := (List.getElem?_eq_some_iff.mp hj).1
      rwa [functionReports_length, List.length_zipIdx] at this
    obtain ⟨r, fin, h1, _⟩ := functionReports_get S.clock states done 1 0 j (List.getElem?_eq_getElem hjl)
    rw [hj] at h1
    rw [Option.some.inj h1]
    show 0 + j ≠ i
    omega
  simp only [handleLine, dictSet_new _ _ _ hi, ebind_ok]
  rw [List.zipIdx_append, List.map_append, foldE_append_eq]
  rw [fold_entries_error S.clock (f.run (states i)).1 i _ _ hi ⟨_, ⟨f.table, []⟩, none⟩ _ rfl rfl hnd]
  rfl

example : ¬ Declared [(⟨some "f", false, fun d => ([⟨true, ["row"]⟩], .ok d)⟩ : Fn ℕ)] (fun _ => []) :=
  fun h => absurd (h 0 _ rfl ⟨true, ["row"]⟩ (by simp)) (by decide)

/-! ## C79 -/

theorem logFiles_eq (files runs : List (List Record)) :
    logFiles files runs = files.map (fun f => f ++ runs.flatten) ++ (List.range runs.length).map fun i => (runs.drop i).flatten := by
  induction runs generalizing files with
  | nil => simp [logFiles]
  | cons r runs ih =>
    rw [logFiles, ih, List.length_cons, List.range_succ_eq_map, List.map_cons, List.map_map]
    simp [List.map_append, List.append_assoc, Function.comp_def]

/-- **C79**, what the code does: the log file of run number `i` in a process holds that run's records, and behind them the records of every later run. -/
theorem C79_files (runs : List (List Record)) : (logFiles [] runs).length = runs.length ∧ ∀ i, i < runs.length → (logFiles [] runs)[i]? = some (runs.drop i).flatten := by
  rw [logFiles_eq]
  constructor
  · simp
  · intro i hi
    simp [hi]

/-- **C79**, what is true: the last run's log file holds exactly its records. -/
theorem C79_last_partial (runs : List (List Record)) (r : List Record) : (logFiles [] (runs ++ [r])).getLast? = some r := by
  have h := (C79_files (runs ++ [r])).2 runs.length (by simp)
  rw [List.getLast?_eq_getElem?, (C79_files (runs ++ [r])).1]
  simpa using h

/-- **C79** is false: whenever a later run of the process logged anything, the file of an earlier run is not its log. -/
theorem C79_false (runs : List (List Record)) (i j : ℕ) (hij : i < j) {r s : List Record} (hi : runs[i]? = some r) (hj : runs[j]? = some s) (hs : s ≠ []) :
    (logFiles [] runs)[i]? ≠ some r := by
  obtain ⟨hlt, hget⟩ := List.getElem?_eq_some_iff.mp hi
  rw [(C79_files runs).2 i hlt]
  intro h
  rw [List.drop_eq_getElem_cons hlt, hget, List.flatten_cons] at h
  have hz : (runs.drop (i + 1)).flatten = [] := by simpa using Option.some.inj h
  rw [List.flatten_eq_nil_iff] at hz
  refine hs (hz s ?_)
  rw [List.mem_iff_getElem?]
  refine ⟨j - (i + 1), ?_⟩
  rw [List.getElem?_drop, show i + 1 + (j - (i + 1)) = j by omega]
  exact hj

example : logFiles [] [[.reportStart "a" 1, .reportEnd], [.reportStart "b" 2, .reportEnd]] =
    [[.reportStart "a" 1, .reportEnd, .reportStart "b" 2, .reportEnd], [.reportStart "b" 2, .reportEnd]] := by decide

end Ocelot
