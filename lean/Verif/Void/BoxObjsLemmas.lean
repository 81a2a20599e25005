import Verif.Void.BoxObjs
import Verif.Void.Lemmas
/-!
# Lemmas on the solids held by a void box
-/
namespace Geouned.Void
open Geouned.Box

/-- specification: the definition of the cell has one part for each CAD solid, in order (`ps`: bounding box of the solid and part), and a part that holds at
the point `q` (sides `σ`) has `q` in the bounding box of its solid -/
structure Parts (q : Pt) (σ : Side) (o : VObj) (ps : List (Option BBox × Seq)) : Prop where
  solids : o.solids = ps.map Prod.fst
  defn : ∃ l, o.defn = .lst .or l (ps.map Prod.snd)
  seq : ∀ p ∈ ps, ∃ op l es, p.2 = .lst op l es
  inside : ∀ p ∈ ps, p.2.sem σ = true → ∃ b, p.1 = some b ∧ b.Mem q

theorem touch_of_mem {B b : BBox} {q : Pt} (h1 : B.Mem q) (h2 : b.Mem q) : Touch B b := by
  obtain ⟨⟨a1, a2⟩, ⟨a3, a4⟩, a5, a6⟩ := h1
  obtain ⟨⟨b1, b2⟩, ⟨b3, b4⟩, b5, b6⟩ := h2
  exact ⟨⟨b1.trans a2, a1.trans b2⟩, ⟨b3.trans a4, a3.trans b4⟩, b5.trans a6, a5.trans b6⟩

theorem hullAll_mem {q : Pt} : ∀ {ss : List (Option BBox)} {b : BBox}, some b ∈ ss → b.Mem q → ∃ c, hullAll ss = some c ∧ c.Mem q
  | none :: ss, b, h, hq => by
    simp only [List.mem_cons, reduceCtorEq, false_or] at h
    simpa [hullAll] using hullAll_mem h hq
  | some a :: ss, b, h, hq => by
    simp only [List.mem_cons, Option.some.injEq] at h
    obtain ⟨⟨q1, q2⟩, ⟨q3, q4⟩, q5, q6⟩ := hq
    rcases h with rfl | h
    · simp only [hullAll]
      cases hh : hullAll ss with
      | none => exact ⟨b, rfl, ⟨q1, q2⟩, ⟨q3, q4⟩, q5, q6⟩
      | some c => exact ⟨_, rfl, ⟨by simp [hull, q1], by simp [hull, q2]⟩, ⟨by simp [hull, q3], by simp [hull, q4]⟩, by simp [hull, q5], by simp [hull, q6]⟩
    · obtain ⟨c, hc, ⟨c1, c2⟩, ⟨c3, c4⟩, c5, c6⟩ := hullAll_mem h (⟨⟨q1, q2⟩, ⟨q3, q4⟩, q5, q6⟩ : b.Mem q)
      simp only [hullAll, hc]
      exact ⟨_, rfl, ⟨by simp [hull, c1], by simp [hull, c2]⟩, ⟨by simp [hull, c3], by simp [hull, c4]⟩, by simp [hull, c5], by simp [hull, c6]⟩

/-- the pairs kept -/
noncomputable def keepPs (B : BBox) (ps : List (Option BBox × Seq)) : List (Option BBox × Seq) := ps.filter fun p => hit B p.1

theorem keepLoop_spec (B : BBox) (l : Int) : ∀ (ps pre : List (Option BBox × Seq)) (l' : Int) (acc : List Seq),
    (∀ p ∈ ps, ∃ op k es, p.2 = .lst op k es) →
    ∃ l'', keepLoop B (.lst .or l ((pre ++ ps).map Prod.snd)) pre.length (ps.map Prod.fst) (.lst .or l' acc) =
        .ok ((keepPs B ps).map Prod.fst, .lst .or l'' (acc ++ (keepPs B ps).map Prod.snd)) ∧ l' ≤ l'' := by
  intro ps
  induction ps with
  | nil => intro pre l' acc _; exact ⟨l', by simp [keepLoop, keepPs], le_refl _⟩
  | cons p ps ih =>
    intro pre l' acc hs
    have e : pre ++ p :: ps = (pre ++ [p]) ++ ps := by simp
    simp only [List.map_cons, keepLoop]
    by_cases hh : hit B p.1 = true
    · obtain ⟨op, k, es, hp⟩ := hs p (by simp)
      obtain ⟨l'', h1, h2⟩ := ih (pre ++ [p]) (max l' (k + 1)) (acc ++ [p.2]) (fun p' h' => hs p' (by simp [h']))
      refine ⟨l'', ?_, (le_max_left _ _).trans h2⟩
      rw [e]
      simp only [hh, if_true, Seq.elemsOf, bind, Except.bind]
      have hi : (((pre ++ [p]) ++ ps).map Prod.snd)[pre.length]? = some p.2 := by simp
      rw [hi]
      have ha : (Seq.lst .or l' acc).append [.seq p.2] = .ok (.lst .or (max l' (k + 1)) (acc ++ [p.2])) := by
        rw [hp]; simp [Seq.append, appendLoop]
      simp only [ha]
      have hlen : (pre ++ [p]).length = pre.length + 1 := by simp
      rw [hlen] at h1
      rw [h1]
      simp [keepPs, hh]
    · obtain ⟨l'', h1, h2⟩ := ih (pre ++ [p]) l' acc (fun p' h' => hs p' (by simp [h']))
      refine ⟨l'', ?_, h2⟩
      have hlen : (pre ++ [p]).length = pre.length + 1 := by simp
      rw [hlen] at h1
      rw [e]
      simp only [hh, Bool.false_eq_true, if_false, h1]
      simp [keepPs, hh]

theorem semAny_iff {σ : Side} : ∀ es : List Seq, Seq.semAny σ es = true ↔ ∃ e ∈ es, e.sem σ = true
  | [] => by simp [Seq.semAny]
  | e :: es => by simp [Seq.semAny, semAny_iff es]

theorem keepLoop_lev (B : BBox) (d : Seq) : ∀ (ss : List (Option BBox)) (i : Nat) (red : Seq) (r), red.WF → d.WF →
    keepLoop B d i ss red = .ok r → r.2.WF := by
  intro ss
  induction ss with
  | nil => intro i red r hw _ h; simp [keepLoop] at h; subst h; exact hw
  | cons s ss ih =>
    intro i red r hw hd h
    simp only [keepLoop] at h
    split at h
    · cases d with
      | int n => simp [Seq.elemsOf, bind, Except.bind] at h
      | boo o k b => simp [Seq.elemsOf, bind, Except.bind] at h
      | lst o k es =>
        simp only [Seq.elemsOf, bind, Except.bind] at h
        split at h
        · cases h
        · next e he =>
          have hew : e.WF := by
            have := List.mem_of_getElem? he
            rw [WF_lst] at hd
            exact hd.2 e this
          cases ha : red.append [.seq e] with
          | error x => simp [ha] at h
          | ok red' =>
            simp only [ha] at h
            cases hk : keepLoop B (.lst o k es) (i + 1) ss red' with
            | error x => simp [hk] at h
            | ok r' =>
              simp only [hk, Except.ok.injEq] at h
              subst h
              obtain ⟨_, _, h', _⟩ := append_one hw hew ha
              exact ih _ _ r' h' hd hk
    · exact ih _ _ _ hw hd h

/-- one object: the parts dropped hold nowhere in the box -/
theorem removeExtraComp_spec {B : BBox} {q : Pt} {σ : Side} {o : VObj} {ps : List (Option BBox × Seq)} (hB : B.Mem q)
    (hp : Parts q σ o ps) (hw : o.defn.WF) (hbox : o.defn.sem σ = true → ∃ b, o.box = some b ∧ b.Mem q) :
    ∃ o' ps', removeExtraComp B o = .ok o' ∧ Parts q σ o' ps' ∧ o'.defn.WF ∧ o'.defn.sem σ = o.defn.sem σ ∧
      (o'.defn.sem σ = true → ∃ b, o'.box = some b ∧ b.Mem q) ∧ o'.id = o.id ∧ o'.isEncl = o.isEncl := by
  obtain ⟨l, hd⟩ := hp.defn
  unfold removeExtraComp
  cases ps with
  | nil =>
    have : o.solids = [] := by simpa using hp.solids
    rw [this]
    exact ⟨o, [], rfl, hp, hw, rfl, hbox, rfl, rfl⟩
  | cons p ps =>
    have hs := hp.solids
    simp only [List.map_cons] at hs
    rw [hs]
    obtain ⟨l'', h1, h2⟩ := keepLoop_spec B l (p :: ps) [] 0 [] hp.seq
    simp only [List.nil_append, List.length_nil, List.map_cons] at h1
    simp only [List.map_cons] at hd
    simp only [hd, h1, bind, Except.bind]
    split
    · have hwf := keepLoop_lev B _ _ _ _ _ (by simp [Seq.WF, Seq.WFL]) (hd ▸ hw) h1
      have hsem : (Seq.lst .or l'' ((keepPs B (p :: ps)).map Prod.snd)).sem σ = o.defn.sem σ := by
        rw [hd]
        rw [Bool.eq_iff_iff]
        simp only [Seq.sem]
        rw [semAny_iff, semAny_iff]
        constructor
        · rintro ⟨e, he, hes⟩
          obtain ⟨p', hp', rfl⟩ := List.mem_map.1 he
          exact ⟨p'.2, List.mem_map.2 ⟨p', (List.mem_filter.1 hp').1, rfl⟩, hes⟩
        · rintro ⟨e, he, hes⟩
          obtain ⟨p', hp', rfl⟩ := List.mem_map.1 (show e ∈ (p :: ps).map Prod.snd from he)
          refine ⟨p'.2, List.mem_map.2 ⟨p', List.mem_filter.2 ⟨hp', ?_⟩, rfl⟩, hes⟩
          obtain ⟨b, hb, hbq⟩ := hp.inside p' hp' hes
          simp only [hb, hit, decide_eq_true_eq]
          exact touch_of_mem hB hbq
      refine ⟨_, keepPs B (p :: ps), rfl, ⟨rfl, ⟨l'', rfl⟩, ?_, ?_⟩, hwf, hsem.trans (by rw [hd]), ?_, rfl, rfl⟩
      · intro p' hp'; exact hp.seq p' (List.mem_filter.1 hp').1
      · intro p' hp'; exact hp.inside p' (List.mem_filter.1 hp').1
      · intro hs
        simp only [Seq.sem] at hs
        obtain ⟨e, he, hes⟩ := (semAny_iff _).1 hs
        obtain ⟨p', hp', rfl⟩ := List.mem_map.1 he
        obtain ⟨b, hb, hbq⟩ := hp.inside p' (List.mem_filter.1 hp').1 hes
        exact hullAll_mem (b := b) (List.mem_map.2 ⟨p', hp', hb⟩) hbq
    · exact ⟨o, p :: ps, rfl, hp, hw, by rw [hd], hbox, rfl, rfl⟩

/-- a cell of which the definition and the CAD solids correspond at the point -/
def Located (q : Pt) (σ : Side) (o : VObj) : Prop :=
  (∃ ps, Parts q σ o ps) ∧ o.defn.WF ∧ (o.defn.sem σ = true → ∃ b, o.box = some b ∧ b.Mem q)

theorem copyMeta_located {q : Pt} {σ : Side} {m : VObj} (h : Located q σ m) : Located q σ (copyMeta m) := by
  obtain ⟨⟨ps, hp⟩, hw, hb⟩ := h
  refine ⟨⟨ps, ⟨hp.solids, hp.defn, hp.seq, hp.inside⟩⟩, hw, fun hs => ?_⟩
  obtain ⟨l, hd⟩ := hp.defn
  have hs' : m.defn.sem σ = true := hs
  rw [hd] at hs'
  simp only [Seq.sem] at hs'
  obtain ⟨e, he, hes⟩ := (semAny_iff _).1 hs'
  obtain ⟨p', hp', rfl⟩ := List.mem_map.1 he
  obtain ⟨b, hb, hbq⟩ := hp.inside p' hp' hes
  refine hullAll_mem (b := b) ?_ hbq
  rw [hp.solids]
  exact List.mem_map.2 ⟨p', hp', hb⟩

/-- specification: the definition of the cell is an OR with one sequence for each CAD solid -/
def Shaped (o : VObj) : Prop :=
  (∃ (l : Int) (es : List Seq), o.defn = .lst .or l es ∧ es.length = o.solids.length ∧ ∀ e ∈ es, ∃ op k xs, e = .lst op k xs) ∧ o.defn.WF

theorem Located.shaped {q : Pt} {σ : Side} {o : VObj} (h : Located q σ o) : Shaped o := by
  obtain ⟨⟨ps, hp⟩, hw, _⟩ := h
  obtain ⟨l, hd⟩ := hp.defn
  refine ⟨⟨l, _, hd, by simp [hp.solids], ?_⟩, hw⟩
  intro e he
  obtain ⟨p, h1, rfl⟩ := List.mem_map.1 he
  exact hp.seq p h1

theorem Shaped.ps {o : VObj} (h : Shaped o) : ∃ (l : Int) (ps : List (Option BBox × Seq)), o.solids = ps.map Prod.fst ∧
    o.defn = .lst .or l (ps.map Prod.snd) ∧ ∀ p ∈ ps, ∃ op k es, p.2 = .lst op k es := by
  obtain ⟨⟨l, es, h1, h2, h3⟩, _⟩ := h
  refine ⟨l, o.solids.zip es, ?_, ?_, ?_⟩
  · rw [List.map_fst_zip (by omega)]
  · rw [List.map_snd_zip (by omega)]; exact h1
  · intro p hp
    exact h3 p.2 (List.of_mem_zip hp).2

theorem removeExtraComp_shaped {B : BBox} {o : VObj} (h : Shaped o) : ∃ o', removeExtraComp B o = .ok o' ∧ Shaped o' := by
  obtain ⟨l, ps, hs, hd, hq⟩ := h.ps
  unfold removeExtraComp
  cases ps with
  | nil =>
    have : o.solids = [] := by simpa using hs
    rw [this]
    exact ⟨o, rfl, h⟩
  | cons p ps =>
    simp only [List.map_cons] at hs
    rw [hs]
    obtain ⟨l'', h1, h2⟩ := keepLoop_spec B l (p :: ps) [] 0 [] hq
    simp only [List.nil_append, List.length_nil, List.map_cons] at h1
    simp only [List.map_cons] at hd
    have hwf := keepLoop_lev B _ _ _ _ _ (by simp [Seq.WF, Seq.WFL]) (hd ▸ h.2) h1
    simp only [hd, h1, bind, Except.bind]
    split
    · refine ⟨_, rfl, ⟨l'', _, rfl, by simp, ?_⟩, hwf⟩
      intro e he
      obtain ⟨p', hp', rfl⟩ := List.mem_map.1 he
      exact hq p' (List.mem_filter.1 hp').1
    · exact ⟨o, rfl, h⟩

theorem voidObjs_shaped {B : BBox} : ∀ ms : List VObj, (∀ m ∈ ms, Shaped m) → ∃ os, voidObjs B ms = .ok os ∧ ∀ o ∈ os, Shaped o
  | [], _ => ⟨[], rfl, by simp⟩
  | m :: ms, h => by
    obtain ⟨os, h1, h2⟩ := voidObjs_shaped (B := B) ms (fun m' hm' => h m' (by simp [hm']))
    cases hb : m.box with
    | none => exact ⟨os, by simp [voidObjs, hb, h1], h2⟩
    | some b =>
      by_cases ht : Touch B b
      · obtain ⟨o, r1, r2⟩ := removeExtraComp_shaped (B := B) (o := copyMeta m) (h m (by simp))
        refine ⟨o :: os, by simp [voidObjs, hb, ht, r1, h1, bind, Except.bind], ?_⟩
        intro o' ho'
        rcases List.mem_cons.1 ho' with rfl | ho'
        · exact r2
        · exact h2 o' ho'
      · exact ⟨os, by simp [voidObjs, hb, ht, h1], h2⟩

theorem voidObjs_spec {B : BBox} {q : Pt} {σ : Side} (hB : B.Mem q) : ∀ ms : List VObj, (∀ m ∈ ms, Located q σ m) →
    ∃ os, voidObjs B ms = .ok os ∧ (∀ o ∈ os, Located q σ o) ∧
      ((∃ o ∈ os, o.defn.sem σ = true) ↔ ∃ m ∈ ms, m.defn.sem σ = true) ∧
      (∀ i e, (∃ o ∈ os, o.id = i ∧ o.isEncl = e ∧ o.defn.sem σ = true) ↔ ∃ m ∈ ms, m.id = i ∧ m.isEncl = e ∧ m.defn.sem σ = true)
  | [], _ => ⟨[], rfl, by simp, by simp, by simp⟩
  | m :: ms, h => by
    obtain ⟨os, h1, h2, h3, h4⟩ := voidObjs_spec hB ms (fun m' hm' => h m' (by simp [hm']))
    have hm := h m (by simp)
    have skip : m.defn.sem σ = false → voidObjs B (m :: ms) = voidObjs B ms →
        ∃ os, voidObjs B (m :: ms) = .ok os ∧ (∀ o ∈ os, Located q σ o) ∧
          ((∃ o ∈ os, o.defn.sem σ = true) ↔ ∃ m' ∈ m :: ms, m'.defn.sem σ = true) ∧
          (∀ i e, (∃ o ∈ os, o.id = i ∧ o.isEncl = e ∧ o.defn.sem σ = true) ↔
            ∃ m' ∈ m :: ms, m'.id = i ∧ m'.isEncl = e ∧ m'.defn.sem σ = true) := by
      intro hf he
      refine ⟨os, he.trans h1, h2, ?_, fun i e => ?_⟩
      · rw [h3]; simp [hf]
      · rw [h4]; simp [hf]
    cases hb : m.box with
    | none =>
      refine skip ?_ (by simp [voidObjs, hb])
      cases hs : m.defn.sem σ with
      | false => rfl
      | true => obtain ⟨b, hb', _⟩ := hm.2.2 hs; rw [hb] at hb'; cases hb'
    | some b =>
      by_cases ht : Touch B b
      · obtain ⟨⟨ps, hp⟩, hw, hbx⟩ := copyMeta_located hm
        obtain ⟨o, ps', r1, r2, r3, r4, r5, r6, r7⟩ := removeExtraComp_spec hB hp hw hbx
        refine ⟨o :: os, ?_, ?_, ?_, fun i e => ?_⟩
        · simp [voidObjs, hb, ht, r1, h1, bind, Except.bind]
        · intro o' ho'
          rcases List.mem_cons.1 ho' with rfl | ho'
          · exact ⟨⟨ps', r2⟩, r3, r5⟩
          · exact h2 o' ho'
        · have : o.defn.sem σ = m.defn.sem σ := r4
          simp only [List.mem_cons, exists_eq_or_imp, this, h3]
        · have : o.defn.sem σ = m.defn.sem σ := r4
          have h6 : o.id = m.id := r6
          have h7 : o.isEncl = m.isEncl := r7
          simp only [List.mem_cons, exists_eq_or_imp, this, h6, h7, h4]
      · refine skip ?_ (by simp [voidObjs, hb, ht])
        cases hs : m.defn.sem σ with
        | false => rfl
        | true =>
          obtain ⟨b', hb', hq⟩ := hm.2.2 hs
          rw [hb] at hb'; cases hb'
          exact absurd (touch_of_mem hB hq) ht

end Geouned.Void
