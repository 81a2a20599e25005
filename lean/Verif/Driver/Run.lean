import Verif.Driver.Lemmas
/-!
# Lemmas: a conversion that runs to its end
-/
set_option linter.unusedSectionVars false
namespace Geouned.Driver
open Geouned Geouned.BB

variable {F S : Type} [Field F] [LinearOrder F] [IsStrictOrderedRing F]

/-- cells stay, enclosures stay enclosures, and definitions are not lost -/
def Grow (h h' : List (Cell F)) : Prop :=
  ∀ (r : Nat) (c : Cell F), h[r]? = some c → ∃ c', h'[r]? = some c' ∧ c'.isEncl = c.isEncl ∧ (c.defn.isSome = true → c'.defn.isSome = true)

theorem Grow.refl (h : List (Cell F)) : Grow h h := fun _ c e => ⟨c, e, rfl, id⟩

theorem Grow.trans {a b c : List (Cell F)} (h1 : Grow a b) (h2 : Grow b c) : Grow a c := by
  intro r x hx
  obtain ⟨y, hy, e1, d1⟩ := h1 r x hx
  obtain ⟨z, hz, e2, d2⟩ := h2 r y hy
  exact ⟨z, hz, e2.trans e1, fun h => d2 (d1 h)⟩

theorem Grow.append (h t : List (Cell F)) : Grow h (h ++ t) := by
  intro r c e
  refine ⟨c, ?_, rfl, id⟩
  rw [List.getElem?_append_left]
  · exact e
  · exact (List.getElem?_eq_some_iff.1 e).1

theorem grow_set {h : List (Cell F)} {r : Nat} {c c' : Cell F} (hr : h[r]? = some c) (he : c'.isEncl = c.isEncl)
    (hd : c.defn.isSome = true → c'.defn.isSome = true) : Grow h (h.set r c') := by
  intro q x hx
  by_cases e : r = q
  · subst e
    rw [hr] at hx; cases hx
    exact ⟨c', by rw [List.getElem?_set_self (List.getElem?_eq_some_iff.1 hr).1], he, hd⟩
  · exact ⟨x, by rw [List.getElem?_set_ne e]; exact hx, rfl, id⟩

/-- every one of these places has a cell with a definition -/
def Def (h : List (Cell F)) (l : List Nat) : Prop := ∀ r ∈ l, ∃ c, h[r]? = some c ∧ c.defn.isSome = true

/-- the same, but for enclosures -/
def DefS (h : List (Cell F)) (l : List Nat) : Prop := ∀ r ∈ l, ∃ c, h[r]? = some c ∧ (c.isEncl = true ∨ c.defn.isSome = true)

/-- every one of these places has a cell -/
def Valid (h : List (Cell F)) (l : List Nat) : Prop := ∀ r ∈ l, ∃ c, h[r]? = some c

theorem Def.grow {h h' : List (Cell F)} {l : List Nat} (g : Grow h h') (d : Def h l) : Def h' l := by
  intro r hr
  obtain ⟨c, hc, hd⟩ := d r hr
  obtain ⟨c', hc', -, hd'⟩ := g r c hc
  exact ⟨c', hc', hd' hd⟩

theorem DefS.grow {h h' : List (Cell F)} {l : List Nat} (g : Grow h h') (d : DefS h l) : DefS h' l := by
  intro r hr
  obtain ⟨c, hc, hd⟩ := d r hr
  obtain ⟨c', hc', he, hd'⟩ := g r c hc
  exact ⟨c', hc', by rw [he]; exact hd.imp id hd'⟩

theorem Valid.grow {h h' : List (Cell F)} {l : List Nat} (g : Grow h h') (d : Valid h l) : Valid h' l := by
  intro r hr
  obtain ⟨c, hc⟩ := d r hr
  obtain ⟨c', hc', -⟩ := g r c hc
  exact ⟨c', hc'⟩

theorem splitLoop_total {K : Kit F S} (hT : K.Total) {mm : Bool} : ∀ (l : List (Cell F)) (i : Nat) (s : S), ∃ r, splitLoop K mm i l s = .ok r := by
  intro l
  induction l with
  | nil => intro i s; exact ⟨_, rfl⟩
  | cons m ms ih =>
    intro i s
    rw [splitLoop]
    split
    · exact ih _ _
    · obtain ⟨r, hr⟩ := hT.split s m
      obtain ⟨q, hq⟩ := ih (i + 1) r.1
      exact ⟨_, by rw [hr]; simp only [bind, Except.bind]; rw [hq]⟩

/-- the places reported are those of cells that are no enclosures -/
theorem splitLoop_warn {K : Kit F S} : ∀ (l : List (Cell F)) (i : Nat) (s : S) (r : S × List Nat), splitLoop K true i l s = .ok r →
    ∀ j ∈ r.2, i ≤ j ∧ ∃ c, l[j - i]? = some c ∧ c.isEncl = false := by
  intro l
  induction l with
  | nil => intro i s r e j hj; cases e; cases hj
  | cons m ms ih =>
    intro i s r e j hj
    have step : ∀ q : S × List Nat, ∀ s', splitLoop K true (i + 1) ms s' = .ok q → j ∈ q.2 → i ≤ j ∧ ∃ c, (m :: ms)[j - i]? = some c ∧ c.isEncl = false := by
      intro q s' hq hj
      obtain ⟨h1, c, h2, h3⟩ := ih _ _ _ hq j hj
      refine ⟨by omega, c, ?_, h3⟩
      rw [show j - i = (j - (i + 1)) + 1 by omega, List.getElem?_cons_succ]; exact h2
    rw [splitLoop] at e
    by_cases hm : m.isEncl = true
    · rw [if_pos (by simp [hm])] at e; exact step _ _ e hj
    · rw [if_neg (by simp [hm])] at e
      simp only [bind, Except.bind] at e
      split at e
      · cases e
      · split at e
        · cases e
        · rename_i q hq
          cases e
          dsimp only at hj
          split at hj
          · rcases List.mem_cons.1 hj with rfl | hj
            · exact ⟨le_refl _, m, by simp, by simpa using hm⟩
            · exact step _ _ hq hj
          · exact step _ _ hq hj

theorem splitLoop_encl_only {K : Kit F S} {mm : Bool} : ∀ (l : List (Cell F)) (i : Nat) (s : S) (r : S × List Nat), splitLoop K mm i l s = .ok r →
    ∀ j ∈ r.2, j < i + l.length := by
  intro l
  induction l with
  | nil => intro i s r e j hj; cases e; cases hj
  | cons m ms ih =>
    intro i s r e j hj
    have step : ∀ q : S × List Nat, ∀ s', splitLoop K mm (i + 1) ms s' = .ok q → j ∈ q.2 → j < i + (m :: ms).length := by
      intro q s' hq hj
      have := ih _ _ _ hq j hj
      simp only [List.length_cons]; omega
    rw [splitLoop] at e
    split at e
    · exact step _ _ e hj
    · simp only [bind, Except.bind] at e
      split at e
      · cases e
      · split at e
        · cases e
        · rename_i q hq
          cases e
          dsimp only at hj
          split at hj
          · rcases List.mem_cons.1 hj with rfl | hj
            · simp
            · exact step _ _ hq hj
          · exact step _ _ hq hj

/-- cells get definitions -/
theorem buildLoop_total {K : Kit F S} (hT : K.Total) {mm : Bool} : ∀ (l : List Nat) (h : List (Cell F)) (s : S) (co : List (Option Int × List Int)), Valid h l →
    ∃ r, buildLoop K mm l h s co = .ok r ∧ Grow h r.2.1 ∧ DefS r.2.1 l ∧ (mm = false → Def r.2.1 l) := by
  intro l
  induction l with
  | nil => intro h s co _; exact ⟨_, rfl, .refl _, (fun r hr => nomatch hr), fun _ r hr => nomatch hr⟩
  | cons x xs ih =>
    intro h s co hv
    obtain ⟨c, hc⟩ := hv x (by simp)
    have hv' : Valid h xs := fun r hr => hv r (by simp [hr])
    rw [buildLoop, hc]
    dsimp only
    by_cases he : (mm && c.isEncl) = true
    · rw [if_pos he]
      obtain ⟨r, e, g, d, d'⟩ := ih h s co hv'
      rw [Bool.and_eq_true] at he
      refine ⟨r, e, g, fun q hq => ?_, fun hm => by rw [hm] at he; exact absurd he.1 (by decide)⟩
      rcases List.mem_cons.1 hq with rfl | hq
      · obtain ⟨c', hc', e', -⟩ := g q c hc
        exact ⟨c', hc', .inl (e'.trans he.2)⟩
      · exact d q hq
    · rw [if_neg he]
      obtain ⟨b, hb⟩ := hT.build s c
      have g0 : Grow h (h.set x (c.setDefn b.2.1)) := grow_set hc rfl fun _ => rfl
      obtain ⟨r, e, g, d, d'⟩ := ih (h.set x (c.setDefn b.2.1)) b.1 (if b.2.2.isEmpty then co else (c.id, b.2.2) :: co) (hv'.grow g0)
      have hx : ∃ c', r.2.1[x]? = some c' ∧ c'.defn.isSome = true := by
        obtain ⟨c', hc', -, hd⟩ := g x (c.setDefn b.2.1) (by rw [List.getElem?_set_self (List.getElem?_eq_some_iff.1 hc).1])
        exact ⟨c', hc', hd rfl⟩
      refine ⟨r, by rw [hb]; exact e, g0.trans g, fun q hq => ?_, fun hm q hq => ?_⟩
      · rcases List.mem_cons.1 hq with rfl | hq
        · obtain ⟨c', h1, h2⟩ := hx; exact ⟨c', h1, .inr h2⟩
        · exact d q hq
      · rcases List.mem_cons.1 hq with rfl | hq
        · exact hx
        · exact d' hm q hq

theorem facetLoop_total {K : Kit F S} (hT : K.Total) : ∀ (l : List Nat) (h : List (Cell F)) (s : S), Valid h l →
    ∃ r, facetLoop K l h s = .ok r ∧ Grow h r.2 ∧ DefS r.2 l := by
  intro l
  induction l with
  | nil => intro h s _; exact ⟨_, rfl, .refl _, by intro r hr; cases hr⟩
  | cons x xs ih =>
    intro h s hv
    obtain ⟨c, hc⟩ := hv x (by simp)
    have hv' : Valid h xs := fun r hr => hv r (by simp [hr])
    rw [facetLoop, hc]
    dsimp only
    by_cases he : c.isEncl = true
    · rw [if_pos he]
      obtain ⟨r, e, g, d⟩ := ih h s hv'
      refine ⟨r, e, g, fun q hq => ?_⟩
      rcases List.mem_cons.1 hq with rfl | hq
      · obtain ⟨c', hc', e', -⟩ := g q c hc
        exact ⟨c', hc', .inl (e'.trans he)⟩
      · exact d q hq
    · rw [if_neg he]
      obtain ⟨b, hb⟩ := hT.facet s c
      have g0 : Grow h (h.set x (c.setDefn b.2)) := grow_set hc rfl fun _ => rfl
      obtain ⟨r, e, g, d⟩ := ih (h.set x (c.setDefn b.2)) b.1 (hv'.grow g0)
      refine ⟨r, by rw [hb]; exact e, g0.trans g, fun q hq => ?_⟩
      rcases List.mem_cons.1 hq with rfl | hq
      · obtain ⟨c', hc', -, hd⟩ := g q (c.setDefn b.2) (by rw [List.getElem?_set_self (List.getElem?_eq_some_iff.1 hc).1])
        exact ⟨c', hc', .inr (hd rfl)⟩
      · exact d q hq

theorem setAll_grow : ∀ (l : List Nat) (ds : List Seq) (h : List (Cell F)), Grow h (setAll l ds h) := by
  intro l
  induction l with
  | nil => intro ds h; cases ds <;> exact .refl _
  | cons x xs ih =>
    intro ds h
    cases ds with
    | nil => exact .refl _
    | cons d ds =>
      rw [setAll]
      cases hx : h[x]? with
      | none => exact ih _ _
      | some c => exact (grow_set (c' := c.setDefn d) hx rfl fun _ => rfl).trans (ih _ _)

theorem noOverlapStep_total {K : Kit F S} (hT : K.Total) {l : List Nat} {h : List (Cell F)} {s : S} (hl : l ≠ []) (hd : Def h l ∨ l.length = 1) :
    ∃ h', noOverlapStep K l h s = .ok h' ∧ Grow h h' := by
  unfold noOverlapStep
  split
  · exact absurd rfl hl
  · exact ⟨h, rfl, .refl _⟩
  · rename_i x rs hne
    have hdef : Def h (x :: rs) := by
      rcases hd with hd | hd
      · exact hd
      · cases rs with
        | nil => exact absurd rfl hne
        | cons _ _ => simp at hd
    obtain ⟨ds, hds⟩ := defns_total (l := (x :: rs).filterMap fun r => h[r]?) (by
      intro c hc
      obtain ⟨r, hr, e⟩ := List.mem_filterMap.1 hc
      obtain ⟨c', e', hd⟩ := hdef r hr
      rw [e] at e'; cases e'; exact hd)
    obtain ⟨ns, hns⟩ := hT.noOverlap s ds
    refine ⟨_, ?_, setAll_grow rs ns h⟩
    rw [hds]; simp only [bind, Except.bind]; rw [hns]

theorem simpLoop_total {K : Kit F S} (hT : K.Total) {s : S} : ∀ (l : List Nat) (h : List (Cell F)), Def h l → ∃ h', simpLoop K s l h = .ok h' ∧ Grow h h' := by
  intro l
  induction l with
  | nil => intro h _; exact ⟨h, rfl, .refl _⟩
  | cons x xs ih =>
    intro h hd
    obtain ⟨c, hc, hs⟩ := hd x (by simp)
    have hd' : Def h xs := fun r hr => hd r (by simp [hr])
    obtain ⟨d, hcd⟩ := Option.isSome_iff_exists.1 hs
    rw [simpLoop, hc]
    dsimp only
    rw [hcd]
    dsimp only
    split
    · exact ih h hd'
    · obtain ⟨y, hy⟩ := hT.simp s c d
      have g : Grow h (h.set x { c with defn := some y }) := grow_set hc rfl fun _ => rfl
      obtain ⟨h', e, g'⟩ := ih (h.set x { c with defn := some y }) (hd'.grow g)
      exact ⟨h', by rw [hy]; exact e, g.trans g'⟩

theorem setLabels_grow (n : Labels.St) : ∀ (l : List Nat) (h : List (Cell F)), Grow h (setLabels n l h) := by
  intro l
  induction l with
  | nil => intro h; exact .refl _
  | cons x xs ih =>
    intro h
    rw [setLabels]
    cases hx : h[x]? with
    | none => exact ih _
    | some c => exact (grow_set (c' := { c with label := n.lab.lookup x }) hx rfl fun h => h).trans (ih _)

theorem warnLoop_total {K : Kit F S} (hT : K.Total) : ∀ l : List (Cell F), (∀ c ∈ l, c.defn.isSome = true) → warnLoop K l = .ok () := by
  intro l
  induction l with
  | nil => intro _; rfl
  | cons c cs ih =>
    intro h
    obtain ⟨d, hd⟩ := Option.isSome_iff_exists.1 (h c (by simp))
    obtain ⟨r, hr⟩ := hT.text d
    rw [warnLoop, hd]
    simp only [bind, Except.bind, hr]
    exact ih fun c hc => h c (by simp [hc])

theorem coneLoop_total {K : Kit F S} (hT : K.Total) {co : List (Option Int × List Int)} : ∀ (l : List Nat) (h : List (Cell F)) (s : S),
    ∃ r, coneLoop K co l h s = .ok r := by
  intro l
  induction l with
  | nil => intro h s; exact ⟨_, rfl⟩
  | cons x xs ih =>
    intro h s
    rw [coneLoop]
    cases hx : h[x]? with
    | none => exact ih _ _
    | some c =>
      dsimp only
      cases hd : c.defn with
      | none => exact ih _ _
      | some d =>
        dsimp only
        split
        · cases hi : c.info with
          | none => exact ih _ _
          | some ids =>
            dsimp only
            obtain ⟨y, hy⟩ := hT.cone s d (ids.flatMap fun i => ((co.lookup (some i)).getD []).map fun n => -n)
            rw [hy]
            exact ih _ _
        · cases hl : co.lookup c.id with
          | none => exact ih _ _
          | some ns =>
            dsimp only
            obtain ⟨y, hy⟩ := hT.cone s d ns
            rw [hy]
            exact ih _ _

/-! ## the numbering sees the same cells -/

theorem toLs_congr {h h' : List (Cell F)} (hk : h'.map key = h.map key) (hn : h'.map (·.null) = h.map (·.null)) (l : List Nat) : toLs h' l = toLs h l := by
  unfold toLs
  congr 1
  funext r
  have e1 := congrArg (·[r]?) hk
  have e2 := congrArg (·[r]?) hn
  simp only [List.getElem?_map] at e1 e2
  cases h1 : h'[r]? with
  | none =>
    cases h2 : h[r]? with
    | none => rfl
    | some c => rw [h1, h2] at e1; cases e1
  | some c' =>
    cases h2 : h[r]? with
    | none => rw [h1, h2] at e1; cases e1
    | some c =>
      rw [h1, h2] at e1 e2
      simp only [Option.map_some, Option.some.injEq, key, Prod.mk.injEq] at e1 e2
      obtain ⟨a, b, c, d, e, f, g⟩ := e1
      simp only [Option.map_some, toL, a, b, c, d, g, e2]

theorem toLs_refs {h : List (Cell F)} : ∀ {l : List Nat}, Valid h l → (toLs h l).map Labels.Cell.ref = l := by
  intro l
  induction l with
  | nil => intro _; rfl
  | cons x xs ih =>
    intro hv
    obtain ⟨c, hc⟩ := hv x (by simp)
    have := ih fun r hr => hv r (by simp [hr])
    unfold toLs at this ⊢
    rw [List.filterMap_cons, hc]
    simp only [Option.map_some, List.map_cons, this]
    rfl

theorem mem_toLs {h : List (Cell F)} {l : List Nat} {m : Labels.Cell} : m ∈ toLs h l ↔ ∃ r ∈ l, ∃ c, h[r]? = some c ∧ m = toL r c := by
  unfold toLs
  rw [List.mem_filterMap]
  constructor
  · rintro ⟨r, hr, e⟩
    obtain ⟨c, hc, e⟩ := Option.map_eq_some_iff.1 e
    exact ⟨r, hr, c, hc, e.symm⟩
  · rintro ⟨r, hr, c, hc, rfl⟩
    exact ⟨r, hr, by rw [hc]; rfl⟩

/-! ## the phases -/

theorem cells_getElem {st : State F S} : ∀ {l : List Nat}, Valid st.heap l → ∀ (j r : Nat), l[j]? = some r → (st.cells l)[j]? = st.heap[r]? := by
  intro l
  induction l with
  | nil => intro _ j r e; simp at e
  | cons x xs ih =>
    intro hv j r e
    obtain ⟨c, hc⟩ := hv x (by simp)
    have : st.cells (x :: xs) = c :: st.cells xs := by simp [State.cells, hc]
    rw [this]
    cases j with
    | zero => simp only [List.getElem?_cons_zero, Option.some.injEq] at e; subst e; simp [hc]
    | succ j =>
      rw [List.getElem?_cons_succ] at e ⊢
      exact ih (fun r hr => hv r (by simp [hr])) j r e

theorem solidPhase_total {K : Kit F S} (hT : K.Total) {o : Opts} {st : State F S} {s0 : S} (hm : st.metas ≠ []) (hv : Valid st.heap st.metas)
    (hno : o.noOverlap = true → o.facets = true ∨ (∀ c ∈ st.cells st.metas, c.isEncl = false) ∨ st.metas.length = 1) :
    ∃ x, solidPhase K o st s0 = .ok x ∧ Grow st.heap x.1.heap ∧ DefS x.1.heap st.metas ∧
      (∀ j ∈ x.2.2.1, ∃ c, (st.cells st.metas)[j]? = some c ∧ c.isEncl = false) ∧
      (x.2.2.2.1 ≠ [] → o.voidGen = true ∧ st.encl ≠ []) := by
  unfold solidPhase
  by_cases hf : o.facets = true
  · dsimp only
    rw [if_pos hf]
    obtain ⟨r, hr, g, d⟩ := facetLoop_total hT st.metas st.heap s0 hv
    by_cases hw : (o.voidGen && !st.encl.isEmpty) = true
    · obtain ⟨q, hq⟩ := splitLoop_total hT (mm := false) (({ st with heap := r.2, surf := some r.1 } : State F S).cells st.encl) 0 r.1
      refine ⟨({ st with heap := r.2, surf := some r.1 }, q.1, [], q.2, []), ?_, g, d, (fun j hj => nomatch hj), fun _ => by simpa using hw⟩
      simp only [bind, Except.bind, hr, orLeave, if_pos hw, hq]
    · refine ⟨({ st with heap := r.2, surf := some r.1 }, r.1, [], [], []), ?_, g, d, (fun j hj => nomatch hj), fun h => absurd rfl h⟩
      simp only [bind, Except.bind, hr, orLeave, if_neg hw]
  · dsimp only
    rw [if_neg hf]
    obtain ⟨x, hx⟩ := splitLoop_total hT (mm := true) (st.cells st.metas) 0 s0
    obtain ⟨e, he, hew⟩ : ∃ e, (if (o.voidGen && !st.encl.isEmpty) = true then splitLoop K false 0 (st.cells st.encl) x.1 else .ok (x.1, [])) = .ok e ∧
        (e.2 ≠ [] → o.voidGen = true ∧ st.encl ≠ []) := by
      by_cases hw : (o.voidGen && !st.encl.isEmpty) = true
      · obtain ⟨q, hq⟩ := splitLoop_total hT (mm := false) (st.cells st.encl) 0 x.1
        exact ⟨q, by rw [if_pos hw, hq], fun _ => by simpa using hw⟩
      · exact ⟨_, by rw [if_neg hw], fun h => absurd rfl h⟩
    obtain ⟨b, hb, g, d, -⟩ := buildLoop_total hT (mm := true) st.metas st.heap e.1 [] hv
    have hwarn : ∀ j ∈ x.2, ∃ c, (st.cells st.metas)[j]? = some c ∧ c.isEncl = false := by
      intro j hj
      obtain ⟨-, c, h1, h2⟩ := splitLoop_warn _ _ _ _ hx j hj
      exact ⟨c, by simpa using h1, h2⟩
    by_cases hn : o.noOverlap = true
    · have hd : Def b.2.1 st.metas ∨ st.metas.length = 1 := by
        rcases hno hn with h | h | h
        · exact absurd h hf
        · left
          intro r hr
          obtain ⟨c, hc, hcd⟩ := d r hr
          obtain ⟨c0, hc0⟩ := hv r hr
          obtain ⟨c', hc', he', -⟩ := g r c0 hc0
          rw [hc] at hc'; cases hc'
          have : c0.isEncl = false := h c0 (List.mem_filterMap.2 ⟨r, hr, hc0⟩)
          rw [this] at he'
          exact ⟨c, hc, hcd.resolve_left (by rw [he']; decide)⟩
        · exact .inr h
      obtain ⟨h', hh, g'⟩ := noOverlapStep_total (K := K) (s := b.1) hT hm hd
      refine ⟨({ st with heap := h', surf := some b.1 }, b.1, x.2, e.2, b.2.2), ?_, g.trans g', d.grow g', hwarn, hew⟩
      simp only [bind, Except.bind, hx, orLeave, he, hb, if_pos hn, hh]
    · refine ⟨({ st with heap := b.2.1, surf := some b.1 }, b.1, x.2, e.2, b.2.2), ?_, g, d, hwarn, hew⟩
      simp only [bind, Except.bind, hx, orLeave, he, hb, if_neg hn]

theorem enclPhase_total {K : Kit F S} (hT : K.Total) {o : Opts} {st : State F S} {s : S} {co : List (Option Int × List Int)} (hv : Valid st.heap st.encl) :
    ∃ x, enclPhase K o st s co = .ok x ∧ Grow st.heap x.1.heap ∧ (o.voidGen = true → Def x.1.heap st.encl) := by
  unfold enclPhase
  by_cases hw : (o.voidGen && !st.encl.isEmpty) = true
  · obtain ⟨b, hb, g, -, d⟩ := buildLoop_total hT (mm := false) st.encl st.heap s co hv
    refine ⟨({ st with heap := b.2.1, surf := some b.1 }, b.1, b.2.2), ?_, g, fun _ => d rfl⟩
    simp only [if_pos hw, bind, Except.bind, orLeave, hb]
  · refine ⟨(st, s, co), by rw [if_neg hw], .refl _, fun h r hr => ?_⟩
    rw [h, Bool.true_and] at hw
    have : st.encl = [] := by simpa using hw
    rw [this] at hr; cases hr

/-- the void cells found, at the places after the others -/
theorem voidPhase_total {K : Kit F S} (hT : K.Total) {o : Opts} {st : State F S} {s : S} :
    ∃ x vs, voidPhase K o st s = .ok x ∧ x.1.heap = st.heap ++ vs ∧ x.2.2 = (List.range vs.length).map (st.heap.length + ·) ∧
      (vs = [] ∨ ∃ i s', K.void s (voidInput o (st.cells st.metas)) (st.cells st.encl) i = .ok (s', vs)) := by
  unfold voidPhase
  by_cases hv : o.voidGen = true
  · obtain ⟨r, hr⟩ := hT.void s (voidInput o (st.cells st.metas)) (st.cells st.encl) ((((st.cells st.metas).getLast?.bind (·.id)).getD 0) - (st.encl.length : Int))
    refine ⟨({ st with heap := st.heap ++ r.2, surf := some r.1 }, r.1, (List.range r.2.length).map (st.heap.length + ·)), r.2, ?_, rfl, rfl, .inr ⟨_, r.1, hr⟩⟩
    rw [if_pos hv]
    simp only [bind, Except.bind, orLeave, hr]
  · exact ⟨(st, s, []), [], by rw [if_neg hv], by simp, rfl, .inl rfl⟩

/-- the cells at the places reported -/
theorem warned_def {h : List (Cell F)} {l : List Nat} {w : List Nat} (hd : ∀ j ∈ w, ∀ r, l[j]? = some r → ∃ c, h[r]? = some c ∧ c.defn.isSome = true) :
    Def h ((l.zipIdx.filter fun x => w.contains x.2).map Prod.fst) := by
  intro r hr
  obtain ⟨⟨r', j⟩, hx, rfl⟩ := List.mem_map.1 hr
  obtain ⟨hx1, hx2⟩ := List.mem_filter.1 hx
  exact hd j (by simpa using hx2) r' (List.mem_zipIdx_iff_getElem?.1 hx1)

theorem endPhase_total {K : Kit F S} (hT : K.Total) {o : Opts} {st : State F S} {s : S} {voids warn warnE : List Nat} {co : List (Option Int × List Int)}
    (hfull : o.full = true → Def st.heap st.metas)
    (hw : ∀ j ∈ warn, ∀ r, st.metas[j]? = some r → ∃ c, st.heap[r]? = some c ∧ c.defn.isSome = true)
    (hwE : ∀ j ∈ warnE, ∀ r, st.encl[j]? = some r → ∃ c, st.heap[r]? = some c ∧ c.defn.isSome = true)
    (hn : ∃ n, Labels.number o.startCell (!st.encl.isEmpty && o.sortEncl) (toLs st.heap st.metas) (toLs st.heap voids) = .ok n) :
    ∃ st', endPhase K o st s voids warn warnE co = .ok st' := by
  obtain ⟨h, hh, g, hk⟩ : ∃ h, (if o.full = true then simpLoop K s st.metas st.heap else .ok st.heap) = .ok h ∧ Grow st.heap h ∧
      (h.map key = st.heap.map key ∧ h.map (·.null) = st.heap.map (·.null)) := by
    by_cases hf : o.full = true
    · obtain ⟨h, e, g⟩ := simpLoop_total hT (s := s) st.metas st.heap (hfull hf)
      exact ⟨h, by rw [if_pos hf, e], g, simpLoop_keys _ _ _ e⟩
    · exact ⟨_, by rw [if_neg hf], .refl _, rfl, rfl⟩
  obtain ⟨n, hn⟩ := hn
  rw [← toLs_congr hk.1 hk.2, ← toLs_congr hk.1 hk.2] at hn
  have gp : Grow st.heap (place n.2 (setLabels n.1 (st.metas ++ voids) h)).1 := by
    obtain ⟨t, ht⟩ := place_prefix n.2 (setLabels n.1 (st.metas ++ voids) h)
    rw [ht]
    exact (g.trans (setLabels_grow _ _ _)).trans (.append _ _)
  have hcells : ∀ (l : List Nat) (st' : State F S), Def st'.heap l → ∀ c ∈ st'.cells l, c.defn.isSome = true := by
    intro l st' hd c hc
    obtain ⟨r, hr, e⟩ := List.mem_filterMap.1 hc
    obtain ⟨c', e', hd⟩ := hd r hr
    rw [e] at e'; cases e'; exact hd
  have w1 := warnLoop_total hT _ (hcells _ { st with heap := (place n.2 (setLabels n.1 (st.metas ++ voids) h)).1, metas := (place n.2 (setLabels n.1 (st.metas ++ voids) h)).2 }
    ((warned_def hw).grow gp))
  have w2 := warnLoop_total hT _ (hcells _ { st with heap := (place n.2 (setLabels n.1 (st.metas ++ voids) h)).1, metas := (place n.2 (setLabels n.1 (st.metas ++ voids) h)).2 }
    ((warned_def hwE).grow gp))
  obtain ⟨c, hc⟩ := coneLoop_total hT (co := co) (place n.2 (setLabels n.1 (st.metas ++ voids) h)).2 (place n.2 (setLabels n.1 (st.metas ++ voids) h)).1 s
  unfold endPhase
  simp only [bind, Except.bind, hh, orLeave, hn, labelErr, w1, w2, hc]
  exact ⟨_, rfl⟩

end Geouned.Driver
