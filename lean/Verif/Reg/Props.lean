import Verif.Reg.Lemmas
/-!
# Properties C29 - C31: the surface registry, over all histories of operations
-/
namespace Geouned.Reg
variable {α : Type}

/-- a call made by the program -/
inductive Op (α : Type)
  /-- register a surface of kind `k`, with the comparison then in force -/
  | add (k : Key) (same : α → α → Bool) (s : α)
  | get (index : Int)
  | del (index : Int)

/-- specification: what has been registered under each number -/
abbrev Known (α : Type) := Int → Option α

/-- run one call and keep the specification up to date: a registration that reports a new number makes that number mean
the surface; a deletion forgets the number -/
def step : Reg α × Known α → Op α → Except Err (Reg α × Known α)
  | (r, m), .add k same s =>
    match r.add k same s with
    | ((_, true), r') => .ok (r', m)
    | ((i, false), r') => .ok (r', fun j => if j = i then some s else m j)
  | (r, m), .get index =>
    match r.getSurface index with
    | .error e => .error e
    | .ok (_, r') => .ok (r', m)
  | (r, m), .del index =>
    match r.delSurface index with
    | .error e => .error e
    | .ok r' => .ok (r', fun j => if j = index then none else m j)

/-- run a history; the first exception ends it -/
def run (st : Reg α × Known α) : List (Op α) → Except Err (Reg α × Known α)
  | [] => .ok st
  | op :: ops =>
    match step st op with
    | .error e => .error e
    | .ok st' => run st' ops

/-- the start: no surface, first number `start` -/
def init (start : Int) : Reg α × Known α := (Reg.empty (start - 1), fun _ => none)

/-- a history without deletions -/
def NoDel (ops : List (Op α)) : Prop := ∀ i, Op.del i ∉ ops

/-! ### invariant of histories -/

/-- registry and specification agree -/
def Agree (r : Reg α) (m : Known α) : Prop := ∀ i s, m i = some s ↔ ∃ k, (i, s) ∈ r.lists k

structure Good (st : Reg α × Known α) : Prop where
  inv : Inv st.1
  rng : InRange st.1
  agr : Agree st.1 st.2

theorem init_good (start : Int) : Good (init start : Reg α × Known α) :=
  ⟨⟨fun _ => rfl, fun _ => List.Pairwise.nil, fun _ _ _ _ h => by simp [init, Reg.empty] at h⟩,
    fun _ _ h => by simp [init, Reg.empty] at h, fun i s => by simp [init, Reg.empty]⟩

theorem init_fresh (start : Int) : Fresh (init start : Reg α × Known α).1 := by
  intro k i h; simp [init, Reg.empty] at h

/-- a look-up that returns leaves everything but the cache -/
theorem get_ok {r : Reg α} (h : Inv r) {index : Int} {x r'} (hg : r.getSurface index = .ok (x, r')) :
    Fresh r ∧ ((∃ k e, e ∈ r.lists k ∧ e.1 = index ∧ ∃ i, (r.lists k)[i]? = some e ∧ x = some e ∧
      r' = { r with last := some (k, i) }) ∨ ((∀ k, ∀ e ∈ r.lists k, e.1 ≠ index) ∧ x = none ∧ r' = r)) := by
  have hf : Fresh r := by
    intro k i hl hpos
    by_contra hc
    unfold Reg.getSurface at hg
    rw [hl] at hg
    simp only [if_pos hpos] at hg
    rw [List.getElem?_eq_none (by omega)] at hg
    simp at hg
  refine ⟨hf, ?_⟩
  rcases getSurface_spec h hf index with ⟨k, e, he, h1, i, hi, hq⟩ | ⟨hn, hq⟩
  · rw [hq] at hg
    simp only [Except.ok.injEq, Prod.mk.injEq] at hg
    exact .inl ⟨k, e, he, h1, i, hi, hg.1.symm, hg.2.symm⟩
  · rw [hq] at hg
    simp only [Except.ok.injEq, Prod.mk.injEq] at hg
    exact .inr ⟨hn, hg.1.symm, hg.2.symm⟩

theorem Good.setLast {r : Reg α} {m : Known α} (h : Good (r, m)) (x) : Good ({ r with last := x }, m) :=
  ⟨h.inv.setLast x, h.rng, h.agr⟩

/-- effect of a deletion that returns -/
theorem del_ok {r r' : Reg α} (h : Inv r) {index : Int} (hd : r.delSurface index = .ok r') :
    ∃ k i e, e.1 = index ∧ (r.lists k)[i]? = some e ∧ Inv r' ∧ r'.last = some (k, i) ∧
      r'.surfaceNumber = r.surfaceNumber ∧ r'.offset = r.offset ∧ r'.lists = upd r.lists k ((r.lists k).eraseIdx i) := by
  unfold Reg.delSurface at hd
  cases hg : r.getSurface index with
  | error e => rw [hg] at hd; simp at hd
  | ok x =>
    obtain ⟨x, r1⟩ := x
    rw [hg] at hd
    obtain ⟨_, h1 | h1⟩ := get_ok h hg
    · obtain ⟨k, e, he, hi, i, hlk, _, rfl⟩ := h1
      obtain ⟨r2, hr2, h3⟩ := delLast_spec h hlk
      simp only at hd
      rw [← hi, hr2] at hd
      simp only [Except.ok.injEq] at hd
      subst hd
      exact ⟨k, i, e, hi, hlk, h3⟩
    · obtain ⟨hn, _, rfl⟩ := h1
      simp only at hd
      unfold Reg.delLast at hd
      split at hd
      · cases hd
      · split at hd
        · rename_i hm
          rw [h.tab] at hm
          obtain ⟨e, he, hei⟩ := List.mem_map.1 hm
          exact absurd hei (hn _ e he)
        · cases hd

theorem mem_eraseIdx_iff {β : Type} {l : List β} {i : Nat} {e : β} (hnd : l.Nodup) (hi : l[i]? = some e) (x : β) :
    x ∈ l.eraseIdx i ↔ x ∈ l ∧ x ≠ e := by
  classical
  obtain ⟨hlt, hge⟩ := List.getElem?_eq_some_iff.1 hi
  have : l.eraseIdx i = l.erase e := by
    rw [← hge]; exact (hnd.erase_getElem i hlt).symm
  rw [this, hnd.mem_erase_iff]; tauto

theorem step_good {st st' : Reg α × Known α} (h : Good st) {op : Op α} (hs : step st op = .ok st') : Good st' := by
  obtain ⟨r, m⟩ := st
  cases op with
  | add k same s =>
    obtain ⟨h1, h2, _⟩ := add_inv h.inv h.rng k same s
    simp only [step] at hs
    unfold Reg.add at hs h1 h2
    cases hf : findSame same s (r.lists k) 0 with
    | some x =>
      rw [hf] at hs
      simp only [Except.ok.injEq] at hs
      subst hs
      exact h.setLast _
    | none =>
      rw [hf] at hs h1 h2
      simp only [Except.ok.injEq] at hs
      subst hs
      refine ⟨h1, h2, ?_⟩
      intro i t
      set idx : Int := ((r.surfaceNumber + 1 : Nat) : Int) + r.offset with hidx
      have hnew : ∀ k', ∀ e ∈ r.lists k', e.1 ≠ idx := by
        intro k' e he hc
        have := (h.rng k' e he).2
        simp only at this
        omega
      simp only
      constructor
      · intro hm
        split at hm
        · rename_i hi
          simp only [Option.some.injEq] at hm
          subst hm hi
          exact ⟨k, by simp [upd]⟩
        · obtain ⟨k', hk'⟩ := (h.agr i t).1 hm
          refine ⟨k', ?_⟩
          by_cases hkk : k' = k
          · subst hkk; rw [upd_same]; exact List.mem_append_left _ hk'
          · rw [upd_ne _ _ hkk]; exact hk'
      · rintro ⟨k', hk'⟩
        by_cases hkk : k' = k
        · subst hkk
          rw [upd_same] at hk'
          rcases List.mem_append.1 hk' with h3 | h3
          · rw [if_neg (hnew _ _ h3)]; exact (h.agr i t).2 ⟨_, h3⟩
          · simp at h3; simp [h3]
        · rw [upd_ne _ _ hkk] at hk'
          rw [if_neg (hnew _ _ hk')]; exact (h.agr i t).2 ⟨_, hk'⟩
  | get index =>
    simp only [step] at hs
    cases hg : r.getSurface index with
    | error e => rw [hg] at hs; simp at hs
    | ok x =>
      obtain ⟨x, r1⟩ := x
      rw [hg] at hs
      simp only [Except.ok.injEq] at hs
      subst hs
      obtain ⟨_, h1 | h1⟩ := get_ok h.inv hg
      · obtain ⟨k, e, _, _, i, _, _, rfl⟩ := h1; exact h.setLast _
      · obtain ⟨_, _, rfl⟩ := h1; exact h
  | del index =>
    simp only [step] at hs
    cases hg : r.delSurface index with
    | error e => rw [hg] at hs; simp at hs
    | ok r1 =>
      rw [hg] at hs
      simp only [Except.ok.injEq] at hs
      subst hs
      obtain ⟨k, i, e, hei, hlk, hinv, hlast, hn, ho, hl⟩ := del_ok h.inv hg
      have hmem : e ∈ r.lists k := List.mem_of_getElem? hlk
      have hnd : (r.lists k).Nodup :=
        List.Nodup.of_map Prod.fst ((h.inv.sorted k).imp (fun h => ne_of_lt h))
      have herase : ∀ x, x ∈ (r.lists k).eraseIdx i ↔ x ∈ r.lists k ∧ x ≠ e := mem_eraseIdx_iff hnd hlk
      refine ⟨hinv, ?_, ?_⟩
      · intro j e' he'
        simp only [hl] at he'
        have : e' ∈ r.lists j := by
          by_cases hj : j = k
          · subst hj; rw [upd_same] at he'; exact ((herase _).1 he').1
          · rwa [upd_ne _ _ hj] at he'
        have := h.rng j e' this
        simp only [hn, ho]; exact this
      · intro j t
        simp only [hl]
        constructor
        · intro hm
          split at hm
          · cases hm
          · rename_i hji
            obtain ⟨k', hk'⟩ := (h.agr j t).1 hm
            refine ⟨k', ?_⟩
            by_cases hkk : k' = k
            · subst hkk; rw [upd_same, herase]
              exact ⟨hk', fun hc => hji (by rw [← hei, ← hc])⟩
            · rw [upd_ne _ _ hkk]; exact hk'
        · rintro ⟨k', hk'⟩
          have hin : (j, t) ∈ r.lists k' ∧ (j, t) ≠ e := by
            by_cases hkk : k' = k
            · subst hkk; rw [upd_same, herase] at hk'; exact hk'
            · rw [upd_ne _ _ hkk] at hk'
              exact ⟨hk', fun hc => hkk (h.inv.unique hk' hmem (by rw [hc])).1⟩
          rw [if_neg ?_]
          · exact (h.agr j t).2 ⟨k', hin.1⟩
          · intro hc
            exact hin.2 (h.inv.unique hin.1 hmem (by simpa [hei] using hc)).2

theorem run_good {st st' : Reg α × Known α} (h : Good st) : ∀ {ops : List (Op α)}, run st ops = .ok st' → Good st'
  | [], hr => by simp [run] at hr; rw [← hr]; exact h
  | op :: ops, hr => by
    unfold run at hr
    cases hs : step st op with
    | error e => rw [hs] at hr; simp at hr
    | ok st1 => rw [hs] at hr; exact run_good (step_good h hs) hr

theorem step_nodel {st : Reg α × Known α} (h : Good st) (hf : Fresh st.1) {op : Op α} (hn : ∀ i, op ≠ .del i) :
    ∃ st', step st op = .ok st' ∧ Fresh st'.1 := by
  obtain ⟨r, m⟩ := st
  cases op with
  | add k same s =>
    have h3 := (add_inv h.inv h.rng k same s).2.2
    simp only [step]
    cases ha : r.add k same s with
    | mk o r' =>
      obtain ⟨i, b⟩ := o
      rw [ha] at h3
      cases b <;> exact ⟨_, rfl, h3⟩
  | get index =>
    simp only [step]
    rcases getSurface_spec h.inv hf index with ⟨k, e, _, _, i, hi, hq⟩ | ⟨_, hq⟩
    · rw [hq]; exact ⟨_, rfl, fresh_setLast hi⟩
    · rw [hq]; exact ⟨_, rfl, hf⟩
  | del i => exact absurd rfl (hn i)

theorem run_nodel {st : Reg α × Known α} (h : Good st) (hf : Fresh st.1) : ∀ {ops : List (Op α)}, NoDel ops →
    ∃ st', run st ops = .ok st' ∧ Fresh st'.1
  | [], _ => ⟨st, rfl, hf⟩
  | op :: ops, hn => by
    obtain ⟨st1, h1, hf1⟩ := step_nodel h hf (op := op) (fun i hc => hn i (by rw [hc]; simp))
    obtain ⟨st2, h2, hf2⟩ := run_nodel (step_good h h1) hf1 (ops := ops) (fun i hc => hn i (List.mem_cons_of_mem _ hc))
    refine ⟨st2, ?_, hf2⟩
    unfold run; rw [h1]; exact h2

/-! ### C29 -/

/-- all stored surfaces with their numbers -/
def Reg.all (r : Reg α) : List (Int × α) := keys.flatMap r.lists

theorem flatMap_upd {β : Type} (f : Key → List β) (k : Key) (x : β) : ∀ ks : List Key, ks.Nodup → k ∈ ks →
    (ks.flatMap (upd f k (f k ++ [x]))).Perm (ks.flatMap f ++ [x])
  | [], _, h => by simp at h
  | j :: ks, hnd, hk => by
    simp only [List.flatMap_cons]
    rw [List.nodup_cons] at hnd
    by_cases hj : j = k
    · subst hj
      rw [upd_same]
      have : ks.flatMap (upd f j (f j ++ [x])) = ks.flatMap f := by
        apply List.flatMap_congr
        intro a ha
        rw [upd_ne]; rintro rfl; exact hnd.1 ha
      rw [this, List.append_assoc, List.append_assoc]
      exact List.Perm.append_left _ List.perm_append_comm
    · rw [upd_ne _ _ hj, List.append_assoc]
      exact List.Perm.append_left _ (flatMap_upd f k x ks hnd.2 (by simpa [Ne.symm hj] using hk))

/-- the numbers `start, start + 1, ..., start + n - 1` -/
def numbers (start : Int) (n : Nat) : List Int := (List.range n).map (fun (i : Nat) => start + i)

/-- state reached without deletions: the numbers are those given out -/
structure Full (start : Int) (r : Reg α) : Prop where
  off : r.offset = start - 1
  perm : (r.all.map Prod.fst).Perm (numbers start r.surfaceNumber)

theorem keys_nodup : keys.Nodup := by decide

theorem step_full {start : Int} {st st' : Reg α × Known α} (h : Good st) (hF : Full start st.1) {op : Op α}
    (hn : ∀ i, op ≠ .del i) (hs : step st op = .ok st') : Full start st'.1 := by
  obtain ⟨r, m⟩ := st
  cases op with
  | del i => exact absurd rfl (hn i)
  | get index =>
    simp only [step] at hs
    cases hg : r.getSurface index with
    | error e => rw [hg] at hs; simp at hs
    | ok x =>
      obtain ⟨x, r1⟩ := x
      rw [hg] at hs
      simp only [Except.ok.injEq] at hs
      subst hs
      obtain ⟨_, h1 | h1⟩ := get_ok h.inv hg
      · obtain ⟨k, e, _, _, i, _, _, rfl⟩ := h1; exact ⟨hF.off, hF.perm⟩
      · obtain ⟨_, _, rfl⟩ := h1; exact hF
  | add k same s =>
    simp only [step] at hs
    unfold Reg.add at hs
    cases hf : findSame same s (r.lists k) 0 with
    | some x =>
      rw [hf] at hs
      simp only [Except.ok.injEq] at hs
      subst hs
      exact ⟨hF.off, hF.perm⟩
    | none =>
      rw [hf] at hs
      simp only [Except.ok.injEq] at hs
      subst hs
      refine ⟨hF.off, ?_⟩
      simp only [Reg.all]
      have := (flatMap_upd r.lists k (((r.surfaceNumber + 1 : Nat) : Int) + r.offset, s) keys keys_nodup (mem_keys k)).map Prod.fst
      refine this.trans ?_
      rw [List.map_append, numbers, List.range_succ, List.map_append]
      have hoff : ((r.surfaceNumber + 1 : Nat) : Int) + r.offset = start + (r.surfaceNumber : Int) := by
        have := hF.off; simp only at this; omega
      simp only [List.map_cons, List.map_nil, hoff]
      exact List.Perm.append_right _ hF.perm

theorem run_full {start : Int} {st st' : Reg α × Known α} (h : Good st) (hF : Full start st.1) :
    ∀ {ops : List (Op α)}, NoDel ops → run st ops = .ok st' → Full start st'.1
  | [], _, hr => by simp [run] at hr; rw [← hr]; exact hF
  | op :: ops, hn, hr => by
    unfold run at hr
    cases hs : step st op with
    | error e => rw [hs] at hr; simp at hr
    | ok st1 =>
      rw [hs] at hr
      exact run_full (step_good h hs) (step_full h hF (fun i hc => hn i (by rw [hc]; simp)) hs)
        (fun i hc => hn i (List.mem_cons_of_mem _ hc)) hr

theorem init_full (start : Int) : Full start (init start : Reg α × Known α).1 :=
  ⟨rfl, by simp [init, Reg.empty, Reg.all, numbers, keys]⟩

/-- C29: whatever is registered and looked up, in whatever order, the calls return and the stored surfaces have exactly
the numbers `start, ..., start + n - 1`, each once. -/
theorem C29_numbers_consecutive (start : Int) (ops : List (Op α)) (hn : NoDel ops) :
    ∃ r m, run (init start) ops = .ok (r, m) ∧
      (r.all.map Prod.fst).Perm (numbers start r.all.length) := by
  obtain ⟨⟨r, m⟩, hr, _⟩ := run_nodel (init_good start) (init_fresh start) hn
  refine ⟨r, m, hr, ?_⟩
  have hF := run_full (init_good start) (init_full start) hn hr
  have hlen := hF.perm.length_eq
  simp only [List.length_map, numbers, List.length_range] at hlen
  have := hF.perm
  simp only at this hlen
  rw [hlen]; exact this

/-- C29: numbers stay distinct also when surfaces are deleted. -/
theorem C29_numbers_distinct (start : Int) (ops : List (Op α)) (r : Reg α) (m : Known α)
    (hr : run (init start) ops = .ok (r, m)) : (r.all.map Prod.fst).Nodup := by
  have hG := run_good (init_good start) hr
  simp only [Reg.all, List.map_flatMap]
  rw [List.nodup_flatMap]
  refine ⟨fun k _ => (hG.inv.sorted k).imp (fun h => ne_of_lt h), ?_⟩
  refine keys_nodup.imp ?_
  intro a b hab
  rw [Function.onFun, List.disjoint_left]
  intro x hx hy
  obtain ⟨e, he, rfl⟩ := List.mem_map.1 hx
  obtain ⟨e', he', heq⟩ := List.mem_map.1 hy
  exact hab (hG.inv.disj a b e e' he he' heq.symm)

/-- C29: a registration that finds an equal surface of its kind returns the number of the first such surface and stores
nothing; otherwise it stores the surface under a number used for nothing else. -/
theorem C29_add (start : Int) (ops : List (Op α)) (r : Reg α) (m : Known α) (hr : run (init start) ops = .ok (r, m))
    (k : Key) (same : α → α → Bool) (s : α) :
    (∃ i t r', r.add k same s = ((i, true), r') ∧ (i, t) ∈ r.lists k ∧ same s t = true ∧ r'.lists = r.lists) ∨
    (∃ i r', r.add k same s = ((i, false), r') ∧ (∀ e ∈ r.lists k, same s e.2 = false) ∧
      (∀ k', ∀ e ∈ r.lists k', e.1 ≠ i) ∧
      r'.lists k = r.lists k ++ [(i, s)] ∧ ∀ k', k' ≠ k → r'.lists k' = r.lists k') := by
  have hG := run_good (init_good start) hr
  unfold Reg.add
  cases hf : findSame same s (r.lists k) 0 with
  | some x =>
    obtain ⟨i, idx⟩ := x
    obtain ⟨t, _, ht, hs⟩ := findSame_some hf
    exact .inl ⟨idx, t, _, rfl, List.mem_of_getElem? (by simpa using ht), hs, rfl⟩
  | none =>
    refine .inr ⟨_, _, rfl, findSame_none.1 hf, ?_, upd_same _ _ _, fun k' hk' => upd_ne _ _ hk'⟩
    intro k' e he hc
    have := (hG.rng k' e he).2
    simp only at this
    omega

/-- non-vacuity: three planes, the third equal to the first -/
example : NoDel [Op.add .PX (fun a b : Nat => a == b) 7, .get 3, .add .PZ (fun a b => a == b) 7,
    .add .PX (fun a b => a == b) 7] := by
  intro i; simp

/-! ### C30 -/

/-- C30, full statement: for every history, looking up a number returns what was registered under it (or nothing) -/
def C30_statement (α : Type) : Prop := ∀ (start : Int) (ops : List (Op α)) (r : Reg α) (m : Known α),
  run (init start) ops = .ok (r, m) → ∀ index, ∃ r', r.getSurface index = .ok ((m index).map (fun s => (index, s)), r')

theorem agree_none {r : Reg α} {m : Known α} (h : Agree r m) {index : Int} (hn : ∀ k, ∀ e ∈ r.lists k, e.1 ≠ index) :
    m index = none := by
  cases hm : m index with
  | none => rfl
  | some s => obtain ⟨k, hk⟩ := (h index s).1 hm; exact absurd rfl (hn k _ hk)

theorem get_good {r : Reg α} {m : Known α} (hG : Good (r, m)) (hf : Fresh r) (index : Int) :
    ∃ r', r.getSurface index = .ok ((m index).map (fun s => (index, s)), r') := by
  rcases getSurface_spec hG.inv hf index with ⟨k, e, he, hi, i, _, hq⟩ | ⟨hno, hq⟩
  · have : m index = some e.2 := (hG.agr index e.2).2 ⟨k, by rw [← hi]; exact he⟩
    rw [this]
    subst hi
    exact ⟨_, hq⟩
  · have : m index = none := agree_none hG.agr hno
    rw [this]
    exact ⟨_, hq⟩

/-- C30 holds for histories without deletions: no exception, and the surface returned is the one registered. -/
theorem C30_get_surface_partial (start : Int) (ops : List (Op α)) (hn : NoDel ops) :
    ∃ r m, run (init start) ops = .ok (r, m) ∧
      ∀ index, ∃ r', r.getSurface index = .ok ((m index).map (fun s => (index, s)), r') := by
  obtain ⟨⟨r, m⟩, hr, hf⟩ := run_nodel (init_good start) (init_fresh start) hn
  refine ⟨r, m, hr, fun index => ?_⟩
  have hG := run_good (init_good start) hr
  exact get_good hG hf index

/-- C30 for all histories: a look-up that returns gives the surface registered under the number (never another one). -/
theorem C30_get_surface_returns_partial (start : Int) (ops : List (Op α)) (r : Reg α) (m : Known α)
    (hr : run (init start) ops = .ok (r, m)) (index : Int) (x) (r') (hg : r.getSurface index = .ok (x, r')) :
    x = (m index).map (fun s => (index, s)) := by
  have hG := run_good (init_good start) hr
  obtain ⟨_, h1 | h1⟩ := get_ok hG.inv hg
  · obtain ⟨k, e, he, hi, i, _, rfl, _⟩ := h1
    have : m index = some e.2 := (hG.agr index e.2).2 ⟨k, by rw [← hi]; exact he⟩
    rw [this]; subst hi; rfl
  · obtain ⟨hno, rfl, _⟩ := h1
    have : m index = none := agree_none hG.agr hno
    rw [this]; rfl

/-- C30 for all histories: right after a registration a look-up cannot raise. -/
theorem C30_get_surface_after_add_partial (start : Int) (ops : List (Op α)) (k : Key) (same : α → α → Bool) (s : α)
    (r : Reg α) (m : Known α) (hr : run (init start) (ops ++ [.add k same s]) = .ok (r, m)) (index : Int) :
    ∃ r', r.getSurface index = .ok ((m index).map (fun s => (index, s)), r') := by
  have hG := run_good (init_good start) hr
  have hf : Fresh r := by
    have : ∀ (ops : List (Op α)) (st st' : Reg α × Known α), Good st → run st (ops ++ [.add k same s]) = .ok st' → Fresh st'.1 := by
      intro ops
      induction ops with
      | nil =>
        intro st st' hg h
        simp only [List.nil_append, run] at h
        obtain ⟨st1, h1, hf1⟩ : ∃ st1, step st (.add k same s) = .ok st1 ∧ Fresh st1.1 := by
          obtain ⟨r0, m0⟩ := st
          have h3 := (add_inv hg.inv hg.rng k same s).2.2
          simp only [step]
          cases ha : r0.add k same s with
          | mk o r' =>
            obtain ⟨i, b⟩ := o
            rw [ha] at h3
            cases b <;> exact ⟨_, rfl, h3⟩
        rw [h1] at h
        simp only [Except.ok.injEq] at h
        rw [← h]; exact hf1
      | cons op ops ih =>
        intro st st' hg h
        rw [List.cons_append] at h
        unfold run at h
        cases hs : step st op with
        | error e => rw [hs] at h; simp at h
        | ok st1 => rw [hs] at h; exact ih st1 st' (step_good hg hs) h
    exact this ops _ _ (init_good start) hr
  exact get_good hG hf index

/-- C30 is false of the code: after registering two surfaces and deleting the second, looking up the first raises
IndexError, because the last-hit position is not reset by the deletion. -/
theorem C30_get_surface_violated : ¬ C30_statement Nat := by
  intro h
  have := h 1 [.add .PX (fun _ _ => false) 10, .add .PX (fun _ _ => false) 20, .del 2]
  have hr : ∃ r m, run (init 1) [.add .PX (fun _ _ => false) 10, .add .PX (fun _ _ => false) 20, .del 2] = .ok (r, m) ∧
      r.getSurface 1 = .error .indexError := by
    exact ⟨_, _, rfl, rfl⟩
  obtain ⟨r, m, hr, he⟩ := hr
  obtain ⟨r', h'⟩ := this r m hr 1
  rw [he] at h'
  cases h'

/-! ### C31 -/

theorem sortStep_spec {r : Reg α} (h : Inv r) (hf : Fresh r) (index : Int)
    (hlow : ∀ k, ∀ e ∈ r.lists k, index ≤ e.1) :
    (∃ k e l, r.lists k = e :: l ∧ e.1 = index ∧ ∃ r', sortStep r index = .ok (some e, r') ∧ Inv r' ∧ Fresh r' ∧
      r'.lists = upd r.lists k l) ∨
    ((∀ k, ∀ e ∈ r.lists k, e.1 ≠ index) ∧ sortStep r index = .ok (none, r)) := by
  unfold sortStep
  rcases getSurface_spec h hf index with ⟨k, e, he, hi, i, hlk, hq⟩ | ⟨hno, hq⟩
  · left
    rw [hq]
    simp only
    obtain ⟨e0, l, hl⟩ : ∃ e0 l, r.lists k = e0 :: l := by
      cases hc : r.lists k with
      | nil => rw [hc] at he; simp at he
      | cons a b => exact ⟨a, b, rfl⟩
    have he0 : e0 = e := by
      have hs := h.sorted k
      rw [hl, List.map_cons, List.pairwise_cons] at hs
      rw [hl] at he
      rcases List.mem_cons.1 he with h1 | h1
      · exact h1.symm
      · have h2 := hs.1 e.1 (List.mem_map.2 ⟨e, h1, rfl⟩)
        have h3 := hlow k e0 (by rw [hl]; simp)
        omega
    subst he0
    refine ⟨k, e0, l, hl, hi, ?_⟩
    have hf1 := fresh_setLast hlk
    have hi1 := h.setLast (some (k, i))
    unfold Reg.delSurface
    rcases getSurface_spec hi1 hf1 index with ⟨k2, e2, he2, hi2, i2, hlk2, hq2⟩ | ⟨hno, _⟩
    · rw [hq2]
      simp only
      obtain ⟨hk, hee⟩ := h.unique he2 he (by rw [hi2, hi])
      subst hk hee
      obtain ⟨r2, hr2, hinv2, hlast, _, _, hlists⟩ := delLast_spec hi1 hlk2
      simp only at hlists hr2
      rw [← hi2, hr2]
      have hi20 : i2 = 0 := by
        have hnd : (r.lists k2).Nodup := List.Nodup.of_map Prod.fst ((h.sorted k2).imp (fun h => ne_of_lt h))
        obtain ⟨hlt, hge⟩ := List.getElem?_eq_some_iff.1 hlk2
        simp only at hlt hge
        have h0 : (r.lists k2)[0]'(by rw [hl]; simp) = e2 := by simp [hl]
        exact (hnd.getElem_inj_iff).1 (hge.trans h0.symm)
      subst hi20
      have hls : r2.lists = upd r.lists k2 l := by rw [hlists, hl]; rfl
      refine ⟨r2, rfl, hinv2, ?_, hls⟩
      intro k' i' hl' hpos
      rw [hlast] at hl'
      simp only [Option.some.injEq, Prod.mk.injEq] at hl'
      obtain ⟨rfl, rfl⟩ := hl'
      exact hpos
    · exact absurd hi (hno k e0 he)
  · right
    rw [hq]
    exact ⟨hno, rfl⟩

theorem flatMap_upd_tail {β : Type} (f : Key → List β) (k : Key) (x : β) (l : List β) (hk : f k = x :: l) :
    ∀ ks : List Key, ks.Nodup → k ∈ ks → (x :: ks.flatMap (upd f k l)).Perm (ks.flatMap f)
  | [], _, h => by simp at h
  | j :: ks, hnd, hm => by
    simp only [List.flatMap_cons]
    rw [List.nodup_cons] at hnd
    by_cases hj : j = k
    · subst hj
      rw [upd_same, hk]
      have : ks.flatMap (upd f j l) = ks.flatMap f := by
        apply List.flatMap_congr
        intro a ha
        rw [upd_ne]; rintro rfl; exact hnd.1 ha
      rw [this]; exact List.Perm.refl _
    · rw [upd_ne _ _ hj]
      have := flatMap_upd_tail f k x l hk ks hnd.2 (by simpa [Ne.symm hj] using hm)
      exact (List.perm_middle.symm).trans (List.Perm.append_left _ this)

theorem sortLoop_spec : ∀ (inds : List Int) (r : Reg α), Inv r → Fresh r → inds.Pairwise (· < ·) →
    (∀ k, ∀ e ∈ r.lists k, e.1 ∈ inds) →
    ∃ l, sortLoop r inds = .ok l ∧ l.Perm r.all ∧ (l.map Prod.fst).Sublist inds
  | [], r, _, _, _, hin => by
    refine ⟨[], rfl, ?_, by simp⟩
    have : r.all = [] := by
      simp only [Reg.all, List.flatMap_eq_nil_iff]
      intro k _
      cases hc : r.lists k with
      | nil => rfl
      | cons a b => exact absurd (hin k a (by rw [hc]; simp)) (by simp)
    rw [this]
  | ind :: inds, r, h, hf, hp, hin => by
    rw [List.pairwise_cons] at hp
    have hlow : ∀ k, ∀ e ∈ r.lists k, ind ≤ e.1 := by
      intro k e he
      rcases List.mem_cons.1 (hin k e he) with h1 | h1
      · omega
      · have := hp.1 _ h1; omega
    unfold sortLoop
    rcases sortStep_spec h hf ind hlow with ⟨k, e, l, hl, hei, r', hs, hi', hf', hls⟩ | ⟨hno, hs⟩
    · rw [hs]
      simp only
      have hin' : ∀ k, ∀ e ∈ r'.lists k, e.1 ∈ inds := by
        intro k' e' he'
        have hne : e' ∈ r.lists k' ∧ e'.1 ≠ ind := by
          rw [hls] at he'
          by_cases hk : k' = k
          · subst hk
            rw [upd_same] at he'
            refine ⟨by rw [hl]; exact List.mem_cons_of_mem _ he', ?_⟩
            have hsd := h.sorted k'
            rw [hl, List.map_cons, List.pairwise_cons] at hsd
            have := hsd.1 e'.1 (List.mem_map.2 ⟨e', he', rfl⟩)
            omega
          · rw [upd_ne _ _ hk] at he'
            refine ⟨he', fun hc => hk (h.disj k' k e' e he' (by rw [hl]; simp) (by rw [hc, hei]))⟩
        rcases List.mem_cons.1 (hin k' e' hne.1) with h1 | h1
        · exact absurd h1 hne.2
        · exact h1
      obtain ⟨l', hl', hperm, hsub⟩ := sortLoop_spec inds r' hi' hf' hp.2 hin'
      rw [hl']
      refine ⟨_, rfl, ?_, ?_⟩
      · refine (List.Perm.cons e hperm).trans ?_
        rw [Reg.all, hls]
        exact flatMap_upd_tail r.lists k e l hl keys keys_nodup (mem_keys k)
      · simp only [List.map_cons, hei]; exact hsub.cons_cons ind
    · rw [hs]
      simp only
      obtain ⟨l', hl', hperm, hsub⟩ := sortLoop_spec inds r h hf hp.2 (by
        intro k e he
        rcases List.mem_cons.1 (hin k e he) with h1 | h1
        · exact absurd h1 (hno k e he)
        · exact h1)
      exact ⟨l', hl', hperm, hsub.cons ind⟩

/-- C31: for every registry built by registrations and look-ups, the surfaces to write are returned without exception:
each registered surface exactly once, numbered `start, start + 1, ...` in that order. -/
theorem C31_sorted_surfaces (start : Int) (ops : List (Op α)) (hn : NoDel ops) :
    ∃ r m l, run (init start) ops = .ok (r, m) ∧ sortedSurfaces r = .ok l ∧ l.Perm r.all ∧
      l.map Prod.fst = numbers start r.all.length := by
  obtain ⟨⟨r, m⟩, hr, hf⟩ := run_nodel (init_good start) (init_fresh start) hn
  have hG := run_good (init_good start) hr
  have hF := run_full (init_good start) (init_full start) hn hr
  have hnum : (List.range r.surfaceNumber).map (fun (i : Nat) => r.offset + i + 1) = numbers start r.surfaceNumber := by
    unfold numbers
    apply List.map_congr_left
    intro i _
    have := hF.off
    simp only at this
    omega
  have hsorted : (numbers start r.surfaceNumber).Pairwise (· < ·) := by
    unfold numbers
    rw [List.pairwise_map]
    exact List.pairwise_lt_range.imp (fun h => by omega)
  have hmem : ∀ k, ∀ e ∈ r.copy.lists k, e.1 ∈ numbers start r.surfaceNumber := by
    intro k e he
    exact hF.perm.subset (List.mem_map.2 ⟨e, List.mem_flatMap.2 ⟨k, mem_keys k, he⟩, rfl⟩)
  obtain ⟨l, hl, hperm, hsub⟩ := sortLoop_spec (numbers start r.surfaceNumber) r.copy
    ⟨hG.inv.tab, hG.inv.sorted, hG.inv.disj⟩ hf hsorted hmem
  have hlen := hF.perm.length_eq
  simp only [List.length_map, numbers, List.length_range] at hlen
  refine ⟨r, m, l, hr, ?_, hperm, ?_⟩
  · unfold sortedSurfaces; rw [hnum]; exact hl
  · rw [hlen]
    apply hsub.eq_of_length
    have := hperm.length_eq
    have h2 : r.copy.all.length = r.all.length := rfl
    rw [List.length_map, this, h2, hlen]
    simp [numbers]

/-- non-vacuity: surfaces of two kinds registered alternately and written in number order -/
example : (run (init 5) [Op.add .PZ (fun a b : Nat => a == b) 30, .add .PX (fun a b => a == b) 10, .add .PZ (fun a b => a == b) 31,
    .get 5]).toOption.map (fun st => (sortedSurfaces st.1).toOption) = some (some [(5, 30), (6, 10), (7, 31)]) := by
  decide

end Geouned.Reg
