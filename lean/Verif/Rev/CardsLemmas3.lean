import Verif.Rev.CardsLemmas2
/-!
# C68: surfaces by number, copies for `LIKE` cells, moved surfaces
-/
namespace Geouned.Rev
open Geouned.Text

section
variable {P : Type} {A : Nat → Prop} {σ : P → Side} {cell : P → Nat → Bool}

/-! ## texts without `#` -/

theorem hreads_noHash {s : Side} {cl : Nat → Bool} {r : Rank} {ts : List HTok} {b : Bool} (h : HReads s cl r ts b) :
    .hash ∉ ts → ∃ us, ts = us.map emb ∧ Reads s r us b := by
  induction h with
  | num n h => exact fun _ => ⟨[.num n], rfl, .num n h⟩
  | paren _ ih =>
    intro hn
    obtain ⟨us, rfl, h⟩ := ih (fun h => hn (by simp [h]))
    exact ⟨.lp :: (us ++ [.rp]), by simp [emb], .paren h⟩
  | hashCell n => intro hn; simp at hn
  | hashParen _ _ => intro hn; simp at hn
  | one _ ih => intro hn; obtain ⟨us, e, h⟩ := ih hn; exact ⟨us, e, .one h⟩
  | and _ _ ih1 ih2 =>
    intro hn
    obtain ⟨us, rfl, h1⟩ := ih1 (fun h => hn (by simp [h]))
    obtain ⟨ws, rfl, h2⟩ := ih2 (fun h => hn (by simp [h]))
    exact ⟨us ++ ws, by simp, .and h1 h2⟩
  | single _ ih => intro hn; obtain ⟨us, e, h⟩ := ih hn; exact ⟨us, e, .single h⟩
  | or _ _ ih1 ih2 =>
    intro hn
    obtain ⟨us, rfl, h1⟩ := ih1 (fun h => hn (by simp [h]))
    obtain ⟨ws, rfl, h2⟩ := ih2 (fun h => hn (by simp [h]))
    exact ⟨us ++ .colon :: ws, by simp [emb], .or h1 h2⟩

theorem hsolid_lift : ∀ {ts : List HTok} {us : List Tok}, hsolid ts = us.map emb → ∃ ws : List Tok, ts = ws.map emb
  | [], _, _ => ⟨[], rfl⟩
  | t :: ts, us, e => by
    rw [hsolid_cons] at e
    by_cases hb : t = .blank
    · subst hb
      obtain ⟨ws, rfl⟩ := hsolid_lift (us := us) (ts := ts) (by simpa using e)
      exact ⟨.blank :: ws, rfl⟩
    · rw [if_neg hb] at e
      cases us with
      | nil => simp at e
      | cons u us =>
        simp only [List.cons_append, List.nil_append, List.map_cons, List.cons.injEq] at e
        obtain ⟨rfl, e⟩ := e
        obtain ⟨ws, rfl⟩ := hsolid_lift e
        exact ⟨u :: ws, rfl⟩

theorem hmeans_noHash {s : Side} {cl : Nat → Bool} {ts : List HTok} {b : Bool} (h : HMeans s cl ts b) (hn : .hash ∉ ts) :
    ∃ us, ts = us.map emb ∧ Means s us b := by
  obtain ⟨ws, e, h1⟩ := hreads_noHash h (fun hh => hn (List.mem_filter.1 hh).1)
  obtain ⟨us, rfl⟩ := hsolid_lift e
  refine ⟨us, rfl, ?_⟩
  rw [hsolid_emb] at e
  unfold Means
  rw [map_emb_inj e]
  exact h1

/-! ## sides from numbered surfaces -/

def sideOf (S : SDict P) (p : P) : Side := fun n => (S.get n).any fun s => s p

theorem mapNum_id (us : List Tok) : us.map (mapNum id) = us := by
  induction us with
  | nil => rfl
  | cons t us ih =>
    rw [List.map_cons, ih]
    congr 1
    cases t with
    | num n =>
      simp only [mapNum, id]
      congr 1
      split <;> omega
    | _ => rfl

/-- `g` says in numbers of `S` what `geom` says -/
def TextFor (S : SDict P) (σ : P → Side) (cell : P → Nat → Bool) (geom g : List HTok) : Prop :=
  ∃ us, g = us.map emb ∧ (∀ n, Tok.num n ∈ us → n ≠ 0 ∧ ∃ s, S.get n.natAbs = some s) ∧ ∀ q v, HMeans (σ q) (cell q) geom v → Means (sideOf S q) us v

/-- every surface of `S` is in `S'` -/
def Ext (S S' : SDict P) : Prop := ∀ n s, S.get n = some s → S'.get n = some s

theorem Ext.refl (S : SDict P) : Ext S S := fun _ _ h => h
theorem Ext.trans {S S' S'' : SDict P} (h1 : Ext S S') (h2 : Ext S' S'') : Ext S S'' := fun n s h => h2 n s (h1 n s h)

theorem means_ext {S S' : SDict P} (h : Ext S S') {us : List Tok} (hk : ∀ n, Tok.num n ∈ us → n ≠ 0 ∧ ∃ s, S.get n.natAbs = some s) {q : P} {v : Bool}
    (hm : Means (sideOf S q) us v) : Means (sideOf S' q) us v := by
  rw [← mapNum_id us]
  refine means_map hm fun n hn => ⟨?_, ?_⟩
  · have := (hk n hn).1
    simp only [id]
    omega
  · obtain ⟨-, s, hs⟩ := hk n hn
    simp only [sideOf, id, hs, h _ _ hs]

theorem TextFor.ext {S S' : SDict P} (h : Ext S S') {geom g : List HTok} (ht : TextFor S σ cell geom g) : TextFor S' σ cell geom g := by
  obtain ⟨us, e, hk, hm⟩ := ht
  refine ⟨us, e, fun n hn => ⟨(hk n hn).1, ?_⟩, fun q v hv => means_ext h hk (hm q v hv)⟩
  obtain ⟨s, hs⟩ := (hk n hn).2
  exact ⟨s, h _ _ hs⟩

/-! ## the dictionary of surfaces -/

/-- numbers 1, 2, ..., as many as surfaces -/
def Dense (S : SDict P) : Prop := S.map (·.1) = List.range' 1 S.length

theorem get_none {S : SDict P} {n : Nat} (h : n ∉ S.map (·.1)) : S.get n = none := by
  unfold SDict.get
  rw [List.find?_eq_none.2, Option.map_none]
  intro e he
  simp only [decide_eq_true_eq]
  intro h'
  exact h (List.mem_map.2 ⟨e, he, h'⟩)

theorem get_mem {S : SDict P} {n : Nat} {s : P → Bool} (h : S.get n = some s) : n ∈ S.map (·.1) := by
  refine Classical.byContradiction fun hn => ?_
  rw [get_none hn] at h
  cases h

theorem Dense.mem {S : SDict P} (h : Dense S) {n : Nat} : n ∈ S.map (·.1) ↔ 1 ≤ n ∧ n ≤ S.length := by
  rw [h, List.mem_range'_1]
  omega

theorem Dense.put {S : SDict P} (h : Dense S) (s : P → Bool) : S.put (S.length + 1) s = S ++ [(S.length + 1, s)] := by
  unfold SDict.put
  rw [if_neg]
  simp only [List.any_eq_true, decide_eq_true_eq, not_exists, not_and]
  intro e he he2
  have : S.length + 1 ∈ S.map (·.1) := List.mem_map.2 ⟨e, he, he2⟩
  have := h.mem.1 this
  omega

theorem Dense.snoc {S : SDict P} (h : Dense S) (s : P → Bool) : Dense (S ++ [(S.length + 1, s)]) := by
  unfold Dense at *
  rw [List.map_append, h, List.length_append, List.length_singleton, List.range'_concat]
  simp
  omega

theorem get_append {S T : SDict P} {n : Nat} {s : P → Bool} (h : S.get n = some s) : SDict.get (S ++ T) n = some s := by
  unfold SDict.get at *
  rw [List.find?_append]
  cases e : S.find? (fun e => e.1 = n) with
  | none => simp [e] at h
  | some q => simpa [e] using h

theorem Dense.get_new {S : SDict P} (h : Dense S) (s : P → Bool) : SDict.get (S ++ [(S.length + 1, s)]) (S.length + 1) = some s := by
  have : S.get (S.length + 1) = none := get_none (fun hm => by have := h.mem.1 hm; omega)
  unfold SDict.get at *
  rw [List.find?_append]
  rw [Option.map_eq_none_iff] at this
  simp [this]

theorem move_spec (t : Motion P) : ∀ (ns : List Nat) (d : List (Nat × Nat)) (S : SDict P), Dense S → (∀ n ∈ ns, ∃ s, S.get n = some s) →
    (∀ n ∈ ns, n ∉ d.map (·.1)) → ns.Nodup →
    ∃ d' S', moveSurfaces t ns S.length d S = .ok (S'.length, d', S') ∧ Dense S' ∧ Ext S S' ∧
      (∀ n k, renamed d n = .ok k → renamed d' n = .ok k) ∧
      ∀ n ∈ ns, ∃ k s, renamed d' n = .ok k ∧ k ≠ 0 ∧ S.get n = some s ∧ S'.get k = some fun p => s (t.back p)
  | [], d, S, hd, _, _, _ => ⟨d, S, rfl, hd, .refl S, fun _ _ h => h, fun n hn => by cases hn⟩
  | n :: ns, d, S, hd, hk, hf, hnd => by
    obtain ⟨s, hs⟩ := hk n (by simp)
    rw [List.nodup_cons] at hnd
    have hext : Ext S (S ++ [(S.length + 1, fun p => s (t.back p))]) := fun _ _ h => get_append h
    obtain ⟨d', S', h1, h2, h3, h4, h5⟩ := move_spec t ns (d ++ [(n, S.length + 1)]) (S ++ [(S.length + 1, fun p => s (t.back p))]) (hd.snoc _)
      (fun m hm => by obtain ⟨s', h'⟩ := hk m (by simp [hm]); exact ⟨s', hext _ _ h'⟩)
      (fun m hm => by
        have := hf m (by simp [hm])
        have hne : m ≠ n := fun e => hnd.1 (e ▸ hm)
        rw [List.map_append, List.mem_append]
        rintro (h | h)
        · exact this h
        · simp at h; exact hne h) hnd.2
    refine ⟨d', S', ?_, h2, hext.trans h3, ?_, ?_⟩
    · unfold moveSurfaces
      rw [hs]
      dsimp only
      rw [hd.put]
      simpa using h1
    · intro m k hmk
      refine h4 m k ?_
      unfold renamed at *
      rw [List.find?_append]
      cases e : d.find? (fun e => e.1 = m) with
      | none => simp [e] at hmk
      | some q => simpa [e] using hmk
    · intro m hm
      rcases List.mem_cons.1 hm with rfl | hm
      · refine ⟨S.length + 1, s, h4 _ _ ?_, by omega, hs, h3 _ _ (hd.get_new _)⟩
        unfold renamed
        have : d.find? (fun e => e.1 = m) = none := by
          rw [List.find?_eq_none]
          intro e he
          simp only [decide_eq_true_eq]
          exact fun h => hf m (by simp) (List.mem_map.2 ⟨e, he, h⟩)
        rw [List.find?_append, this]
        simp
      · obtain ⟨k, s', e1, e2, e3, e4⟩ := h5 m hm
        obtain ⟨s'', h''⟩ := hk m (by simp [hm])
        have := hext _ _ h''
        rw [this] at e3
        cases e3
        exact ⟨k, s', e1, e2, h'', e4⟩

theorem dedup_nodup {α : Type} [DecidableEq α] : ∀ l : List α, (dedup l).Nodup
  | [] => List.nodup_nil
  | a :: l => by
    unfold dedup
    split
    · exact dedup_nodup l
    · rename_i h
      rw [List.nodup_cons]
      exact ⟨fun hm => h (mem_dedup'.1 hm), dedup_nodup l⟩

theorem mem_numbersOf {order : List Nat → List Nat} (ho : ∀ l, (order l).Perm l) {ts : List HTok} {n : Nat} :
    n ∈ numbersOf order ts ↔ ∃ m, HTok.num m ∈ ts ∧ m.natAbs = n := by
  unfold numbersOf
  rw [(ho _).mem_iff, mem_dedup', List.mem_filterMap]
  constructor
  · rintro ⟨t, h1, h2⟩
    cases t with
    | num m => exact ⟨m, h1, by simpa using h2⟩
    | _ => simp at h2
  · rintro ⟨m, h1, rfl⟩
    exact ⟨_, h1, rfl⟩

theorem numbersOf_nodup {order : List Nat → List Nat} (ho : ∀ l, (order l).Perm l) (ts : List HTok) : (numbersOf order ts).Nodup := by
  unfold numbersOf
  rw [(ho _).nodup_iff]
  exact dedup_nodup _

end
end Geouned.Rev
