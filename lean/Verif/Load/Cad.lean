import Verif.Load.Join
/-!
# Lemmas: the cells after the envelopes are joined

`loadCad o spl es`: the options, which solids have spline surfaces, and the elements of the CAD tree; gives the cells or an exception.
-/
namespace Geouned.Load

variable {S : Type}

/-- envelope numbers are not repeated: no two elements are marked as envelopes with the same number -/
def EnvelopesDiffer (es : List (Elem S)) : Prop :=
  es.Pairwise (fun e e' => ∀ p q, Marked "envelope".toList e.label e.parents (some p) → Marked "envelope".toList e'.label e'.parents (some q) → p.1 ≠ q.1)

theorem cells_mem {comp remove : Bool} {spl : S → Bool} {es : List (Elem S)} {r : List (Elem S × List S × Nat)} (h : Cells comp remove spl es r) : ∀ x ∈ r, x.1 ∈ es := by
  induction h with
  | nil => simp
  | skip _ _ ih => exact fun x hx => List.mem_cons_of_mem _ (ih x hx)
  | one _ _ _ ih =>
    intro x hx
    rcases List.mem_cons.mp hx with rfl | hx
    · exact List.mem_cons_self
    · exact List.mem_cons_of_mem _ (ih x hx)
  | each _ _ _ ih =>
    intro x hx
    rcases List.mem_append.mp hx with hx | hx
    · obtain ⟨i, hi, rfl⟩ := List.mem_mapIdx.mp hx
      exact List.mem_cons_self
    · exact List.mem_cons_of_mem _ (ih x hx)

theorem pairwise_all {α : Type} {R : α → α → Prop} : ∀ {l : List α}, (∀ x ∈ l, ∀ y ∈ l, R x y) → l.Pairwise R
  | [], _ => .nil
  | a :: l, h => List.pairwise_cons.mpr ⟨fun y hy => h a List.mem_cons_self y (List.mem_cons_of_mem _ hy),
      pairwise_all (fun x hx y hy => h x (List.mem_cons_of_mem _ hx) y (List.mem_cons_of_mem _ hy))⟩

theorem cells_differ {comp remove : Bool} {spl : S → Bool} {es : List (Elem S)} {r : List (Elem S × List S × Nat)} (h : Cells comp remove spl es r) (hd : EnvelopesDiffer es) :
    r.Pairwise (fun x y => ∀ p q, Marked "envelope".toList x.1.label x.1.parents (some p) → Marked "envelope".toList y.1.label y.1.parents (some q) → p.1 ≠ q.1) := by
  induction h with
  | nil => exact .nil
  | skip _ _ ih => exact ih (List.pairwise_cons.mp hd).2
  | one _ _ hc ih =>
    obtain ⟨h1, h2⟩ := List.pairwise_cons.mp hd
    exact List.pairwise_cons.mpr ⟨fun y hy => h1 _ (cells_mem hc y hy), ih h2⟩
  | @each e es r _ hno hc ih =>
    obtain ⟨h1, h2⟩ := List.pairwise_cons.mp hd
    have hx : ∀ x ∈ e.solids.mapIdx (fun i s => (e, keptSolids remove spl [s], i + 1)), x.1 = e := by
      intro x hx
      obtain ⟨i, hi, rfl⟩ := List.mem_mapIdx.mp hx
      rfl
    rw [List.pairwise_append]
    refine ⟨?_, ih h2, fun x hx' y hy p q hp _ => ?_⟩
    · refine pairwise_all (fun x hx' y hy p q hp _ => ?_)
      rw [hx x hx'] at hp
      exact absurd (Or.inr (Or.inr ⟨p, hp⟩)) hno
    · rw [hx x hx'] at hp
      exact absurd (Or.inr (Or.inr ⟨p, hp⟩)) hno

theorem good_envelope {o : Opts} {x : Elem S × List S × Nat} {m : Meta S} (h : Good o x m) (hk : m.kind = .envelope) :
    ∃ p, Marked "envelope".toList x.1.label x.1.parents (some p) ∧ m.enclId = some p.1 := by
  obtain ⟨a, b, _, hb, he⟩ := h.2.1
  unfold EnclOf at he
  cases b with
  | some p => exact ⟨p, hb, he.2.2.1⟩
  | none =>
    cases a with
    | some p => rw [he.2.1] at hk; cases hk
    | none => rw [he.2.1] at hk; cases hk

theorem forall2_mem {α β : Type} {R : α → β → Prop} : ∀ {r : List α} {ms : List β}, List.Forall₂ R r ms → ∀ {m}, m ∈ ms → ∃ x ∈ r, R x m
  | _, _, .nil, _, h => by simp at h
  | _, _, .cons ha t, m, h => by
    rcases List.mem_cons.mp h with rfl | h
    · exact ⟨_, List.mem_cons_self, ha⟩
    · obtain ⟨x, k1, k2⟩ := forall2_mem t h
      exact ⟨x, List.mem_cons_of_mem _ k1, k2⟩

theorem good_nodup {o : Opts} : ∀ {r : List (Elem S × List S × Nat)} {ms : List (Meta S)}, List.Forall₂ (Good o) r ms →
    r.Pairwise (fun x y => ∀ p q, Marked "envelope".toList x.1.label x.1.parents (some p) → Marked "envelope".toList y.1.label y.1.parents (some q) → p.1 ≠ q.1) →
      (none :: (ms.filter (fun m => m.kind = .envelope)).map (·.enclId)).Nodup := by
  intro r ms h hp
  induction h with
  | nil => simp
  | @cons x m r ms hx hr ih =>
    obtain ⟨h1, h2⟩ := List.pairwise_cons.mp hp
    have ih := ih h2
    rw [List.filter_cons]
    split
    · next hk =>
      obtain ⟨p, hp1, hp2⟩ := good_envelope hx (by simpa using hk)
      obtain ⟨n1, n2⟩ := List.nodup_cons.mp ih
      rw [List.map_cons, List.nodup_cons, List.nodup_cons, hp2]
      refine ⟨?_, ?_, n2⟩
      · simp only [List.mem_cons, not_or]
        exact ⟨by simp, n1⟩
      · intro hmem
        obtain ⟨m', hm', he⟩ := List.mem_map.mp hmem
        obtain ⟨hm1, hm2⟩ := List.mem_filter.mp hm'
        obtain ⟨x', hx', hg⟩ := forall2_mem hr hm1
        obtain ⟨q, hq1, hq2⟩ := good_envelope hg (by simpa using hm2)
        rw [hq2] at he
        exact h1 x' hx' p q hp1 hq1 (by simpa using he.symm)
    · exact ih

theorem alike_good {o : Opts} {x : Elem S × List S × Nat} {m m' : Meta S} (h : Good o x m) (ha : Alike m m') : Good o x m' := by
  unfold Alike at ha
  rw [ha]
  refine ⟨h.1, h.2.1, fun hp => ?_⟩
  obtain ⟨h1, h2, h3, h4, h5, h6⟩ := h.2.2 hp
  exact ⟨h1, h2, h3, h4, h5, h6⟩

theorem forall2_alike {o : Opts} : ∀ {r : List (Elem S × List S × Nat)} {ms ms' : List (Meta S)}, List.Forall₂ (Good o) r ms → List.Forall₂ Alike ms ms' →
    List.Forall₂ (Good o) r ms'
  | _, _, _, .nil, .nil => .nil
  | _, _, _, .cons h1 t1, .cons h2 t2 => .cons (alike_good h1 h2) (forall2_alike t1 t2)

/-- envelopes with different numbers are not joined -/
theorem join_good {o : Opts} {r : List (Elem S × List S × Nat)} {ms : List (Meta S)} (h : List.Forall₂ (Good o) r ms)
    (hp : r.Pairwise (fun x y => ∀ p q, Marked "envelope".toList x.1.label x.1.parents (some p) → Marked "envelope".toList y.1.label y.1.parents (some q) → p.1 ≠ q.1)) :
    ∃ ms', joinEnvelopes ms = .ok ms' ∧ List.Forall₂ (Good o) r ms' ∧ (ms.map (·.id) = List.range' 1 ms.length → ms'.map (·.id) = ms.map (·.id)) := by
  obtain ⟨ps, h1, h2⟩ := runs_single ms 0 none [] (good_nodup h hp)
  obtain ⟨l', k1, k2, k3⟩ := fuseRuns_single ps ms (fun k hk => by have := h2 k hk; omega)
  refine ⟨l', ?_, forall2_alike h k2, k3⟩
  unfold joinEnvelopes
  rw [h1]
  exact k1

theorem loadCad_good {o : Opts} (hd : o.delLast = false) {spl : S → Bool} {es : List (Elem S)} (he : EnvelopesDiffer es) {ms : List (Meta S)} (h : loadCad o spl es = .ok ms) :
    ∃ r, Cells o.comp o.remove spl es r ∧ List.Forall₂ (Good o) r ms ∧ ((o.comp = true ∨ ∀ e ∈ es, OneCell o.comp e → e.solids.length ≤ 1) → ms.map (·.id) = List.range' 1 ms.length) := by
  unfold loadCad at h
  cases hl : elemLoop o es 0 (firstMetas o spl (es.flatMap (·.solids)) 0) with
  | error x => rw [hl] at h; cases h
  | ok l =>
    rw [hl] at h
    dsimp only at h
    obtain ⟨ms0, r, h1, h2, h3⟩ := elemLoop_good hd spl es [] 0 hl
    rw [List.nil_append] at h1
    subst h1
    obtain ⟨ms', j1, j2, j3⟩ := join_good h3 (cells_differ h2 he)
    rw [j1] at h
    cases h
    refine ⟨r, h2, j2, fun hone => ?_⟩
    obtain ⟨ms1, k1, k2⟩ := elemLoop_ids hd spl es [] 0 (hone.imp id (fun x => ⟨rfl, x⟩)) hl
    rw [List.nil_append] at k1
    subst k1
    have k2' : l.map (·.id) = List.range' 1 l.length := k2
    rw [j3 k2', k2', ← h3.length_eq, ← j2.length_eq]

/-- no label of the element or of those above it asks for a dilution without digits -/
def DilOk (e : Elem S) : Prop := ∀ l ∈ e.label :: e.parents, ∀ a b, l ≠ a ++ "_d._".toList ++ b

theorem searchUp_mem {α : Type} {find : List Char → Option α} : ∀ {ls : List (List Char)} {x : α}, searchUp find ls = some x → ∃ l ∈ ls, find l = some x
  | [], x, h => by cases h
  | l :: ls, x, h => by
    rw [searchUp] at h
    cases hl : find l with
    | none =>
      rw [hl] at h
      obtain ⟨l', h1, h2⟩ := searchUp_mem h
      exact ⟨l', List.mem_cons_of_mem _ h1, h2⟩
    | some y =>
      rw [hl] at h
      cases h
      exact ⟨l, List.mem_cons_self, hl⟩

theorem search_mem {α : Type} {m : List Char → Option α} : ∀ {s : List Char} {x : α}, search m s = some x → ∃ a t, s = a ++ t ∧ m t = some x
  | [], x, h => by cases h
  | c :: s, x, h => by
    rw [search] at h
    cases hl : m (c :: s) with
    | none =>
      rw [hl] at h
      obtain ⟨a, t, h1, h2⟩ := search_mem h
      exact ⟨c :: a, t, by rw [h1]; rfl, h2⟩
    | some y =>
      rw [hl] at h
      cases h
      exact ⟨[], c :: s, rfl, hl⟩

theorem dil_ok {o : Opts} (hd : o.delLast = false) {e : Elem S} (he : DilOk e) : (findAll o e).dil ≠ some ([], []) := by
  intro h
  unfold findAll at h
  cases hp : e.parents with
  | nil => rw [hp] at h; cases h
  | cons p ps =>
    rw [hp] at h
    dsimp only at h
    obtain ⟨l, hl, hs⟩ := searchUp_mem h
    obtain ⟨l0, hl0, rfl⟩ := List.mem_map.mp hl
    rw [hd, getLabel_false] at hs
    obtain ⟨a, t, h1, h2⟩ := search_mem hs
    cases hm : matchText ['_', 'd'] t with
    | none => rw [hm] at h2; cases h2
    | some u =>
      rw [hm] at h2
      have h3 : matchDec u = some ([], []) := h2
      obtain ⟨rest, hr, _⟩ := (matchDec_iff u [] []).mp h3
      refine he l0 (by rw [hp]; exact hl0) a rest ?_
      rw [h1, (matchText_iff _ _ _).mp hm, hr]
      simp

theorem setAll_total {o : Opts} {f : Found} (hf : f.dil ≠ some ([], [])) (cm : List Char) (i : Nat) (m : Meta S) : ∃ m', setAll o f cm i m = .ok m' := by
  unfold setAll
  dsimp only
  generalize ({ setMat o f { m with comments := cm ++ Nat.toDigits 10 (i + 1) } with
      fill := f.fill.or (setMat o f { m with comments := cm ++ Nat.toDigits 10 (i + 1) }).fill,
      trans := f.trans.or (setMat o f { m with comments := cm ++ Nat.toDigits 10 (i + 1) }).trans } : Meta S) = m1
  unfold setDil
  cases hd : f.dil with
  | none => exact ⟨_, rfl⟩
  | some ab =>
    dsimp only
    unfold decVal
    rw [if_neg (fun hab => hf (by rw [hd]; exact congrArg some (Prod.ext hab.1 hab.2)))]
    exact ⟨_, rfl⟩

theorem attrs_total {o : Opts} {f : Found} (hf : f.dil ≠ some ([], [])) (cm : List Char) : ∀ (A : List (Meta S)) (i : Nat), ∃ A', attrs o f cm i A = .ok A'
  | [], i => ⟨[], rfl⟩
  | m :: A, i => by
    obtain ⟨m', h1⟩ := setAll_total (o := o) hf cm i m
    obtain ⟨A', h2⟩ := attrs_total hf cm A (i + 1)
    rw [attrs, h1, h2]
    exact ⟨_, rfl⟩

theorem elemLoop_total {o : Opts} (hd : o.delLast = false) (spl : S → Bool) : ∀ (es : List (Elem S)) (done : List (Meta S)) (j : Nat), (∀ e ∈ es, DilOk e) →
    ∃ l, elemLoop o es done.length (done ++ firstMetas o spl (es.flatMap (·.solids)) j) = .ok l
  | [], done, j, _ => ⟨_, rfl⟩
  | e :: es, done, j, h => by
    by_cases he : e.solids = []
    · rw [elemLoop, if_pos he, List.flatMap_cons, he, List.nil_append]
      exact elemLoop_total hd spl es done j (fun e' h' => h e' (List.mem_cons_of_mem _ h'))
    · rw [elemLoop_cons o spl e es done j he]
      obtain ⟨A, hA⟩ := attrs_total (o := o) (dil_ok hd (h e List.mem_cons_self)) (elemComment o e) (blockOf o spl (findAll o e) e.solids done.length j) 0
      rw [hA]
      exact elemLoop_total hd spl es (done ++ A) (j + e.solids.length) (fun e' h' => h e' (List.mem_cons_of_mem _ h'))

theorem loadCad_total {o : Opts} (hd : o.delLast = false) (spl : S → Bool) {es : List (Elem S)} (he : EnvelopesDiffer es) (hdil : ∀ e ∈ es, DilOk e) :
    ∃ ms, loadCad o spl es = .ok ms := by
  obtain ⟨l, hl⟩ := elemLoop_total hd spl es [] 0 hdil
  have hl' : elemLoop o es 0 (firstMetas o spl (es.flatMap (·.solids)) 0) = .ok l := hl
  obtain ⟨ms0, r, rfl, h2, h3⟩ := elemLoop_good hd spl es [] 0 hl
  obtain ⟨ms', j1, _, _⟩ := join_good h3 (cells_differ h2 he)
  refine ⟨ms', ?_⟩
  unfold loadCad
  rw [hl']
  exact j1

end Geouned.Load
