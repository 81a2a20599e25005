import Verif.Setup.Lemmas
/-!
# C123: parameters of a conversion are checked when they are given
-/
namespace Geouned.Setup

/-- **C123.** Assignment of a documented parameter: a value of the documented type is stored, and nothing else changes; any other value raises an exception and nothing changes. -/
theorem C123_assign (st : State) (i : Nat) (o : Obj) (hi : st.objs[i]? = some o) (name : String) (d : Doc) (hd : documented o.cls name = some d) (v : Val) :
    (Has st.lists v d → ∃ st' o', step st (.set i name v) = (st', none) ∧ st'.lists = st.lists ∧ st'.objs[i]? = some o' ∧ o'.cls = o.cls ∧ o'.attr name = some v
      ∧ (∀ n, n ≠ name → o'.attr n = o.attr n) ∧ ∀ j, j ≠ i → st'.objs[j]? = st.objs[j]?)
    ∧ (¬ Has st.lists v d → ∃ e, step st (.set i name v) = (st, some e)) := by
  have hlt : i < st.objs.length := by
    rw [List.getElem?_eq_some_iff] at hi
    exact hi.1
  rcases setAttr_doc (l := st.lists) (v := v) hd with ⟨h1, h2⟩ | ⟨h1, e, h2⟩
  · refine ⟨fun _ => ⟨{ st with objs := st.objs.set i { o with attr := Function.update o.attr name (some v) } }, _, ?_, rfl, List.getElem?_set_self hlt, rfl, by simp, ?_, ?_⟩, fun h => absurd h1 h⟩
    · simp only [step, hi, h2]
    · intro n hn; simp [Function.update, hn]
    · intro j hj; exact List.getElem?_set_ne (Ne.symm hj)
  · exact ⟨fun h => absurd h h1, fun _ => ⟨e, by simp only [step, hi, h2]⟩⟩

/-- **C123.** Construction: with parameters that are documented and have their types (each at most once; the default lists are still empty) the object is made, and has the values given and the
default values of the others. Otherwise an exception is raised and nothing is made. -/
theorem C123_make (st : State) (h0 : st.lists 0 = []) (h1 : st.lists 1 = []) (c : Cls) (args : List (String × Val)) (hn : (args.map Prod.fst).Nodup) :
    ((∀ a ∈ args, ∃ d, documented c a.1 = some d ∧ Has st.lists a.2 d) → ∃ o, step st (.make c args) = ({ st with objs := st.objs ++ [o] }, none) ∧ o.cls = c
      ∧ (∀ a ∈ args, o.attr a.1 = some a.2) ∧ ∀ p ∈ params c, p.1 ∉ args.map Prod.fst → o.attr p.1 = some p.2.2)
    ∧ ((∃ a ∈ args, ∀ d, documented c a.1 = some d → ¬ Has st.lists a.2 d) → ∃ e, step st (.make c args) = (st, some e)) := by
  have hlook : ∀ a ∈ args, args.lookup a.1 = some a.2 := by
    clear h0 h1
    induction args with
    | nil => intro a ha; cases ha
    | cons b l ih =>
      simp only [List.map_cons, List.nodup_cons] at hn
      intro a ha
      rcases List.mem_cons.1 ha with rfl | ha'
      · simp [List.lookup]
      · have : a.1 ≠ b.1 := fun e => hn.1 (e ▸ List.mem_map_of_mem ha')
        obtain ⟨b1, b2⟩ := b
        simp only [List.lookup, beq_eq_false_iff_ne.2 this]
        exact ih hn.2 a ha'
  have hnone : ∀ n, n ∉ args.map Prod.fst → args.lookup n = none := by
    intro n h
    rw [List.lookup_eq_none_iff]
    intro a ha
    have : n ≠ a.1 := fun e => h (e ▸ List.mem_map_of_mem ha)
    simpa using this
  constructor
  · intro h
    have hall : args.all (fun a => (params c).any (fun p => p.1 = a.1)) = true := by
      rw [List.all_eq_true]
      intro a ha
      obtain ⟨d, hd, -⟩ := h a ha
      obtain ⟨p, hp, e, -⟩ := mem_params_of_documented hd
      rw [List.any_eq_true]
      exact ⟨p, hp, by simp [e]⟩
    obtain ⟨o, ho⟩ := initLoop_total (l := st.lists) (args := args) (ps := params c) (o := ⟨c, fun _ => none⟩) (by
      intro p hp
      refine ⟨_, documented_of_mem hp, ?_⟩
      by_cases hm : p.1 ∈ args.map Prod.fst
      · obtain ⟨a, ha, e⟩ := List.mem_map.1 hm
        obtain ⟨d, hd, hh⟩ := h a ha
        rw [← e, hlook a ha]
        rw [e, documented_of_mem hp] at hd
        cases hd
        exact hh
      · rw [hnone _ hm]
        exact default_has h0 h1 hp)
    obtain ⟨a1, a2, -⟩ := initLoop_ok (params_nodup c) ho
    refine ⟨o, ?_, a1, ?_, ?_⟩
    · simp only [step, construct, hall, if_true, ho]
    · intro a ha
      obtain ⟨d, hd, -⟩ := h a ha
      obtain ⟨p, hp, e, -⟩ := mem_params_of_documented hd
      have := (a2 p hp).1
      rw [e, hlook a ha] at this
      exact this
    · intro p hp hp'
      have := (a2 p hp).1
      rw [hnone _ hp'] at this
      exact this
  · rintro ⟨a, ha, hb⟩
    simp only [step, construct]
    split_ifs with hall
    · cases ho : initLoop st.lists args ⟨c, fun _ => none⟩ (params c) with
      | error e => exact ⟨e, rfl⟩
      | ok o =>
        exfalso
        rw [List.all_eq_true] at hall
        have := hall a ha
        rw [List.any_eq_true] at this
        obtain ⟨p, hp, e⟩ := this
        have e : p.1 = a.1 := by simpa using e
        obtain ⟨-, a2, -⟩ := initLoop_ok (params_nodup c) ho
        have := (a2 p hp).2 _ (documented_of_mem hp)
        rw [e, hlook a ha] at this
        exact hb _ (by rw [← e]; exact documented_of_mem hp) this
    · exact ⟨_, rfl⟩

/-- what holds in a history without additions to lists -/
structure Inv (st : State) : Prop where
  next : 2 ≤ st.next
  first : st.lists 0 = []
  second : st.lists 1 = []
  refs : ∀ o ∈ st.objs, ∀ name r, o.attr name = some (.list r) → r < st.next
  typed : Typed st

theorem inv_start : Inv start := ⟨by decide, rfl, rfl, fun o ho => (by cases ho), fun o ho => (by cases ho)⟩

theorem inv_step {st : State} (h : Inv st) {o : Op} (ho : o.Plain st.next) : Inv (step st o).1 := by
  cases o with
  | append r v => exact absurd ho (by simp [Op.Plain])
  | list vs =>
    have h2 := h.next
    refine ⟨by show 2 ≤ st.next + 1; omega, ?_, ?_, ?_, ?_⟩
    · show Function.update st.lists st.next vs 0 = []
      rw [Function.update_of_ne (by omega)]; exact h.first
    · show Function.update st.lists st.next vs 1 = []
      rw [Function.update_of_ne (by omega)]; exact h.second
    · intro o ho name r hr
      exact Nat.lt_succ_of_lt (h.refs o ho name r hr)
    · intro o ho name d hd
      obtain ⟨v, h1, h3⟩ := h.typed o ho name d hd
      refine ⟨v, h1, (has_mono ?_).1 h3⟩
      intro r hr
      subst hr
      have := h.refs o ho name r h1
      show Function.update st.lists st.next vs r = _
      rw [Function.update_of_ne (by omega)]
  | make c args =>
    simp only [step, construct]
    split_ifs with hall
    · cases hi : initLoop st.lists args ⟨c, fun _ => none⟩ (params c) with
      | error e => exact h
      | ok o =>
        obtain ⟨a1, a2, a3⟩ := initLoop_ok (params_nodup c) hi
        refine ⟨h.next, h.first, h.second, ?_, ?_⟩
        · intro o' ho' name r hr
          rcases List.mem_append.1 ho' with ho' | ho'
          · exact h.refs o' ho' name r hr
          · rw [List.mem_singleton] at ho'
            subst ho'
            by_cases hp : name ∈ (params c).map Prod.fst
            · obtain ⟨p, hpp, rfl⟩ := List.mem_map.1 hp
              rw [(a2 p hpp).1] at hr
              simp only [Option.some.injEq] at hr
              cases hl : args.lookup p.1 with
              | some v =>
                rw [hl] at hr
                obtain ⟨l₁, l₂, e, -⟩ := List.lookup_eq_some_iff.1 hl
                exact ho (p.1, v) (by rw [e]; simp) r hr
              | none =>
                rw [hl] at hr
                simp only [Option.getD_none] at hr
                have h2 := h.next
                have : r < 2 := by
                  clear hi a1 a2 a3 hall hl hp ho
                  cases c <;> simp only [params, List.mem_cons, List.not_mem_nil, or_false] at hpp <;>
                    · repeat' (rcases hpp with rfl | hpp; · first | (cases hr; done) | (cases hr; decide))
                exact Nat.lt_of_lt_of_le this h2
            · rw [a3 name hp] at hr
              cases hr
        · intro o' ho' name d hd
          rcases List.mem_append.1 ho' with ho' | ho'
          · exact h.typed o' ho' name d hd
          · rw [List.mem_singleton] at ho'
            subst ho'
            rw [a1] at hd
            obtain ⟨p, hp, rfl, -⟩ := mem_params_of_documented hd
            exact ⟨_, (a2 p hp).1, (a2 p hp).2 d hd⟩
    · exact h
  | set i name v =>
    simp only [step]
    cases hi : st.objs[i]? with
    | none => exact h
    | some o =>
      dsimp only
      cases hs : setAttr st.lists o name v with
      | error e => exact h
      | ok o' =>
        obtain ⟨rfl, hh⟩ := setAttr_ok hs
        have hmem : o ∈ st.objs := List.mem_of_getElem? hi
        refine ⟨h.next, h.first, h.second, ?_, ?_⟩
        · intro x hx n r hr
          rcases List.mem_or_eq_of_mem_set hx with hx | rfl
          · exact h.refs x hx n r hr
          · by_cases hn : n = name
            · subst hn
              simp only [Function.update_self, Option.some.injEq] at hr
              exact ho r hr
            · simp only [Function.update_of_ne hn] at hr
              exact h.refs o hmem n r hr
        · intro x hx n d hd
          rcases List.mem_or_eq_of_mem_set hx with hx | rfl
          · exact h.typed x hx n d hd
          · by_cases hn : n = name
            · subst hn
              exact ⟨v, by simp, hh d hd⟩
            · simp only [Function.update_of_ne hn]
              exact h.typed o hmem n d hd

theorem inv_run : ∀ {ops : List Op} {st : State}, Inv st → AllPlain st ops → Inv (run st ops)
  | [], _, h, _ => h
  | _ :: _, _, h, hp => by
    unfold run
    exact inv_run (inv_step h hp.1) hp.2

/-- C123 for all histories: every documented parameter of every object has a value of its type -/
def C123_types_statement : Prop := ∀ ops, Typed (run start ops)

/-- **C123**, proved part: histories in which no list is changed after it was made. -/
theorem C123_types_partial (ops : List Op) (h : AllPlain start ops) : Typed (run start ops) := (inv_run inv_start h).typed

/-- **C123, violation.** `settings.voidExclude.append(5)` is not checked. -/
theorem C123_types_violated : ¬ C123_types_statement := by
  intro h
  have h := h [.make .settings [], .append 1 (.int 5)]
  obtain ⟨o, ho⟩ : ∃ o, construct start.lists .settings [] = .ok o ∧ o.cls = .settings ∧ o.attr "voidExclude" = some (.list 1) := ⟨_, rfl, rfl, rfl⟩
  have hr : run start [.make .settings [], .append 1 (.int 5)] = ⟨Function.update (fun _ => []) 1 [.int 5], 2, [o]⟩ := by
    simp only [run, step, ho.1]
    rfl
  rw [hr] at h
  obtain ⟨v, h1, h2⟩ := h o (by simp) "voidExclude" .strings (by rw [ho.2.1]; decide)
  rw [ho.2.2] at h1
  cases h1
  obtain ⟨r, e, h3⟩ := h2
  cases e
  obtain ⟨s, hs⟩ := h3 (.int 5) (by simp)
  cases hs

/-- C123: an object that is made without arguments excludes nothing from the void generation and has no void material -/
def C123_defaults_statement : Prop :=
  ∀ ops, ∃ o, step (run start ops) (.make .settings []) = ({ run start ops with objs := (run start ops).objs ++ [o] }, none)
    ∧ ∀ r, o.attr "voidExclude" = some (.list r) ∨ o.attr "voidMat" = some (.list r) → (run start ops).lists r = []

/-- **C123**, proved part: histories in which no list is changed after it was made. -/
theorem C123_defaults_partial (ops : List Op) (h : AllPlain start ops) :
    ∃ o, step (run start ops) (.make .settings []) = ({ run start ops with objs := (run start ops).objs ++ [o] }, none)
      ∧ ∀ r, o.attr "voidExclude" = some (.list r) ∨ o.attr "voidMat" = some (.list r) → (run start ops).lists r = [] := by
  have hi := inv_run inv_start h
  obtain ⟨o, h1, -, -, h2⟩ := (C123_make (run start ops) hi.first hi.second .settings [] (by simp)).1 (by simp)
  refine ⟨o, h1, ?_⟩
  rintro r (hr | hr)
  · have := h2 ("voidExclude", .strings, .list 1) (by decide) (by simp)
    rw [this] at hr
    cases hr
    exact hi.second
  · have := h2 ("voidMat", .voidMat, .list 0) (by decide) (by simp)
    rw [this] at hr
    cases hr
    exact hi.first

/-- **C123, violation.** The default list is one object: after `a.voidExclude.append("x")` the next `Settings()` excludes `x`, too. -/
theorem C123_defaults_violated : ¬ C123_defaults_statement := by
  intro h
  obtain ⟨o, h1, h2⟩ := h [.make .settings [], .append 1 (.str "x")]
  obtain ⟨a, ha⟩ : ∃ o, construct start.lists .settings [] = .ok o := ⟨_, rfl⟩
  have hr : run start [.make .settings [], .append 1 (.str "x")] = ⟨Function.update (fun _ => []) 1 [.str "x"], 2, [a]⟩ := by
    simp only [run, step, ha]
    rfl
  obtain ⟨b, hb, hb2⟩ : ∃ o, construct (Function.update (fun _ => []) 1 [.str "x"]) .settings [] = .ok o ∧ o.attr "voidExclude" = some (.list 1) := ⟨_, rfl, rfl⟩
  rw [hr] at h1 h2
  simp only [step, hb, Prod.mk.injEq, State.mk.injEq, true_and, and_true, List.cons_append, List.nil_append, List.cons.injEq] at h1
  subst h1
  have := h2 1 (.inl hb2)
  simp at this

/-- C123: a name that is no parameter is rejected, also in assignments -/
def C123_names_statement : Prop := ∀ (st : State) (i : Nat) (o : Obj) (name : String) (v : Val), st.objs[i]? = some o → documented o.cls name = none → ∃ e, (step st (.set i name v)).2 = some e

/-- **C123, violation.** A misspelt name in an assignment is accepted (`settings.minvoidsize = 50.0`); the parameter that was meant keeps its value. -/
theorem C123_names_violated : ¬ C123_names_statement := by
  intro h
  obtain ⟨a, ha, hc⟩ : ∃ o, construct start.lists .settings [] = .ok o ∧ o.cls = .settings := ⟨_, rfl, rfl⟩
  obtain ⟨e, he⟩ := h ⟨fun _ => [], 2, [a]⟩ 0 a "minvoidsize" (flt 50) rfl (by rw [hc]; decide)
  have hf : (params .settings).find? (fun p => p.1 = "minvoidsize") = none := by decide
  simp [step, setAttr, hc, hf] at he

/-! ## the hypotheses are met -/

/-- a history with objects, rejected values, and lists -/
def history : List Op :=
  [.make .settings [("minVoidSize", flt 50)], .set 0 "maxSurf" (.str "many"), .list [.int 100, flt (1 / 1000), .str "Air"], .set 0 "voidMat" (.list 2), .make .options [("enlargeBox", .int (-1))],
   .make .tolerances [("distance", .int 1)], .set 0 "startCell" (.int 1000)]

theorem history_plain : AllPlain start history := by
  refine ⟨?_, ?_, trivial, ?_, ?_, ?_, ?_, trivial⟩
  · simp [Op.Plain, flt]
  · simp [Op.Plain]
  · intro r hr
    cases hr
    decide
  · simp [Op.Plain]
  · simp [Op.Plain]
  · simp [Op.Plain]

example : Typed (run start history) := C123_types_partial history history_plain

/-- one object is made in it; the values are as assigned, the rejected ones are not -/
example : (run start history).objs.map (fun o => (o.attr "voidMat", o.attr "maxSurf", o.attr "startCell", o.attr "minVoidSize"))
    = [(some (.list 2), some (.int 50), some (.int 1000), some (flt 50))] := by decide +kernel

/-- a material with three values, and with two -/
example : Has (run start history).lists (.list 2) .material := .intro 2 ⟨rfl, .inr ⟨.int 100, flt (1 / 1000), .str "Air", rfl, .inl ⟨_, rfl⟩, .inr ⟨_, rfl⟩, _, rfl⟩⟩

end Geouned.Setup
