import Verif.RCore.TreeSpec
import Mathlib.Data.List.Perm.Basic
import Mathlib.Data.List.Range
/-! # Lemmas for C128 -/
namespace Geouned.RCore
open TreeSpec List

variable {S : Type}

theorem addObjects_append (d x : Doc S) {g : Nat} (l : List Nat) (hg : g < d.length) : addObjects (d ++ x) g l = addObjects d g l ++ x := by
  apply List.ext_getElem?
  intro j
  unfold addObjects
  rw [List.getElem?_modify]
  by_cases hj : j < d.length
  · rw [List.getElem?_append_left hj, List.getElem?_append_left (by simpa using hj), List.getElem?_modify]
  · rw [List.getElem?_append_right (by omega), List.getElem?_append_right (by simp; omega), List.length_modify]
    have : ¬ g = j := by omega
    simp [this]

theorem addObjects_add (d : Doc S) (g : Nat) (l l' : List Nat) : addObjects (addObjects d g l) g l' = addObjects d g (l ++ l') := by
  unfold addObjects
  rw [List.modify_modify_eq]
  congr 1
  funext o
  simp [Function.comp]

theorem addObjects_nil (d : Doc S) (g : Nat) : addObjects d g [] = d := by
  unfold addObjects
  simp only [List.append_nil]
  exact List.modify_id ..

@[simp] theorem addObjects_length (d : Doc S) (g : Nat) (l : List Nat) : (addObjects d g l).length = d.length := by simp [addObjects]

theorem modify_last {α : Type} (d : List α) (o : α) (f : α → α) : (d ++ [o]).modify d.length f = d ++ [f o] := by
  induction d with
  | nil => rfl
  | cons x d ih => simpa using ih

theorem addObjects_get {d : Doc S} {g j : Nat} (l : List Nat) (h : g ≠ j) : (addObjects d g l)[j]? = d[j]? := by
  unfold addObjects
  rw [List.getElem?_modify_ne _ _ h]

mutual
/-- `Shows` with all references at least `b` -/
inductive SB (doc : Doc S) (b : Nat) : Nat → Tree S → Prop
  | solid {i o s} : b ≤ i → doc[i]? = some o → o.kind = .feature → o.shape = some s → o.children = [] → SB doc b i (.solid o.label s)
  | part {i o ts} : b ≤ i → doc[i]? = some o → o.kind = .part → SAB doc b o.children ts → SB doc b i (.part o.label ts)

inductive SAB (doc : Doc S) (b : Nat) : List Nat → List (Tree S) → Prop
  | nil : SAB doc b [] []
  | cons {i l t ts} : SB doc b i t → SAB doc b l ts → SAB doc b (i :: l) (t :: ts)
end

mutual
theorem SB.shows {doc : Doc S} {b i : Nat} {t : Tree S} : SB doc b i t → Shows doc i t
  | .solid _ h1 h2 h3 h4 => .solid h1 h2 h3 h4
  | .part _ h1 h2 h3 => .part h1 h2 h3.shows

theorem SAB.shows {doc : Doc S} {b : Nat} {l : List Nat} {ts : List (Tree S)} : SAB doc b l ts → ShowsAll doc l ts
  | .nil => .nil
  | .cons h1 h2 => .cons h1.shows h2.shows
end

mutual
theorem SB.mono {doc doc' : Doc S} {b b' i : Nat} {t : Tree S} (hb : b' ≤ b) (he : ∀ (j : Nat) (o : Obj S), b ≤ j → doc[j]? = some o → doc'[j]? = some o) : SB doc b i t → SB doc' b' i t
  | .solid h0 h1 h2 h3 h4 => .solid (hb.trans h0) (he _ _ h0 h1) h2 h3 h4
  | .part h0 h1 h2 h3 => .part (hb.trans h0) (he _ _ h0 h1) h2 (h3.mono hb he)

theorem SAB.mono {doc doc' : Doc S} {b b' : Nat} {l : List Nat} {ts : List (Tree S)} (hb : b' ≤ b) (he : ∀ (j : Nat) (o : Obj S), b ≤ j → doc[j]? = some o → doc'[j]? = some o) :
    SAB doc b l ts → SAB doc' b' l ts
  | .nil => .nil
  | .cons h1 h2 => .cons (h1.mono hb he) (h2.mono hb he)
end

theorem SAB.append {doc : Doc S} {b : Nat} {l l' : List Nat} {ts ts' : List (Tree S)} (h : SAB doc b l ts) (h' : SAB doc b l' ts') : SAB doc b (l ++ l') (ts ++ ts') := by
  match h with
  | .nil => exact h'
  | .cons h1 h2 => exact .cons h1 (SAB.append h2 h')

theorem TreeSpec.Within.mono {doc doc' : Doc S} {i j : Nat} (he : ∀ (k : Nat) (o : Obj S), doc[k]? = some o → ∃ o' : Obj S, doc'[k]? = some o' ∧ ∀ c ∈ o.children, c ∈ o'.children) (h : Within doc i j) :
    Within doc' i j := by
  induction h with
  | refl => exact .refl
  | step _ h2 h3 ih =>
    obtain ⟨o', h4, h5⟩ := he _ _ h2
    exact .step ih h4 (h5 _ h3)

theorem grow_append (d x : Doc S) : ∀ (k : Nat) (o : Obj S), d[k]? = some o → ∃ o' : Obj S, (d ++ x)[k]? = some o' ∧ ∀ c ∈ o.children, c ∈ o'.children := by
  intro k o h
  exact ⟨o, by rw [List.getElem?_append_left (List.getElem?_eq_some_iff.1 h).1, h], fun _ h => h⟩

theorem grow_add (d : Doc S) (g : Nat) (l : List Nat) : ∀ (k : Nat) (o : Obj S), d[k]? = some o → ∃ o' : Obj S, (addObjects d g l)[k]? = some o' ∧ ∀ c ∈ o.children, c ∈ o'.children := by
  intro k o h
  unfold addObjects
  rw [List.getElem?_modify]
  split
  · exact ⟨_, by rw [h]; rfl, fun c hc => List.mem_append_left _ hc⟩
  · exact ⟨o, by rw [h]; rfl, fun _ h => h⟩

theorem TreeSpec.Within.trans' {doc : Doc S} {i j k : Nat} (h : Within doc i j) (h' : Within doc j k) : Within doc i k := by
  induction h' with
  | refl => exact h
  | step _ h2 h3 ih => exact .step ih h2 h3

/-! ### the dictionary of materials -/

theorem addFeat_keys (d : List (Int × List Nat)) (m : Int) (f : Nat) :
    (addFeat d m f).map Prod.fst = if m ∈ d.map Prod.fst then d.map Prod.fst else d.map Prod.fst ++ [m] := by
  induction d with
  | nil => simp [addFeat]
  | cons x d ih =>
    obtain ⟨m', l⟩ := x
    unfold addFeat
    split
    · rename_i h; subst h; simp
    · rename_i h
      simp only [List.map_cons, ih, List.mem_cons]
      have h' : ¬ m = m' := fun e => h e.symm
      by_cases hm : m ∈ d.map Prod.fst
      · simp [hm]
      · simp [hm, h']

theorem firsts_append (l : List Int) (m : Int) : firsts (l ++ [m]) = if m ∈ firsts l then firsts l else firsts l ++ [m] := by
  unfold firsts
  rw [List.reverse_append, List.reverse_singleton, List.singleton_append]
  by_cases h : m ∈ l.reverse
  · rw [List.dedup_cons_of_mem h, if_pos (by simpa using h)]
  · rw [List.dedup_cons_of_notMem h, if_neg (by simpa using h), List.reverse_cons]

theorem mats_append (a b : List (Item S)) : mats (a ++ b) = mats a ++ mats b := by
  induction a with
  | nil => rfl
  | cons x a ih => cases x <;> simp [mats, ih]

theorem solidsOf_append (m : Int) (a b : List (Item S)) : solidsOf m (a ++ b) = solidsOf m a ++ solidsOf m b := by
  induction a with
  | nil => rfl
  | cons x a ih =>
    cases x with
    | cell n m' s => simp only [List.cons_append, solidsOf, ih]; split <;> rfl
    | univ c u l => simp [solidsOf, ih]

theorem solidsOf_nil {m : Int} {l : List (Item S)} (h : m ∉ mats l) : solidsOf m l = [] := by
  induction l with
  | nil => rfl
  | cons x a ih =>
    cases x with
    | cell n m' s =>
      simp only [mats, List.mem_cons, not_or] at h
      rw [solidsOf, if_neg (fun e => h.1 e.symm), ih h.2]
    | univ c u l => exact ih h

/-- the dictionary holds the solids of the cells seen so far -/
structure CadOk (doc : Doc S) (b : Nat) (cad : List (Int × List Nat)) (pre : List (Item S)) : Prop where
  keys : cad.map Prod.fst = firsts (mats pre)
  vals : ∀ x ∈ cad, SAB doc b x.2 (solidsOf x.1 pre)

theorem CadOk.mono {doc doc' : Doc S} {b : Nat} {cad : List (Int × List Nat)} {pre : List (Item S)} (h : CadOk doc b cad pre)
    (he : ∀ (j : Nat) (o : Obj S), b ≤ j → doc[j]? = some o → doc'[j]? = some o) : CadOk doc' b cad pre :=
  ⟨h.keys, fun x hx => (h.vals x hx).mono (Nat.le_refl _) he⟩

theorem firsts_nodup (l : List Int) : (firsts l).Nodup := List.nodup_reverse.2 (List.nodup_dedup _)

theorem mem_firsts {l : List Int} {m : Int} : m ∈ firsts l ↔ m ∈ l := by simp [firsts]

theorem addFeat_mem {d : List (Int × List Nat)} (hn : (d.map Prod.fst).Nodup) {m : Int} {f : Nat} {x : Int × List Nat} (hx : x ∈ addFeat d m f) :
    (x ∈ d ∧ x.1 ≠ m) ∨ (∃ l, (m, l) ∈ d ∧ x = (m, l ++ [f])) ∨ (m ∉ d.map Prod.fst ∧ x = (m, [f])) := by
  induction d with
  | nil => simp [addFeat] at hx; right; right; simpa using hx
  | cons y d ih =>
    obtain ⟨m', l⟩ := y
    simp only [List.map_cons, List.nodup_cons] at hn
    unfold addFeat at hx
    split at hx
    · rename_i h
      subst h
      rcases List.mem_cons.1 hx with rfl | hx
      · exact .inr (.inl ⟨l, List.mem_cons_self .., rfl⟩)
      · refine .inl ⟨List.mem_cons_of_mem _ hx, fun e => hn.1 ?_⟩
        rw [← e]; exact List.mem_map_of_mem hx
    · rename_i h
      rcases List.mem_cons.1 hx with rfl | hx
      · exact .inl ⟨List.mem_cons_self .., h⟩
      · rcases ih hn.2 hx with ⟨h1, h2⟩ | ⟨l', h1, h2⟩ | ⟨h1, h2⟩
        · exact .inl ⟨List.mem_cons_of_mem _ h1, h2⟩
        · exact .inr (.inl ⟨l', List.mem_cons_of_mem _ h1, h2⟩)
        · refine .inr (.inr ⟨?_, h2⟩)
          simp only [List.map_cons, List.mem_cons, not_or]
          exact ⟨fun e => h e.symm, h1⟩

theorem addFeat_perm (d : List (Int × List Nat)) (m : Int) (f : Nat) : (addFeat d m f).flatMap Prod.snd ~ d.flatMap Prod.snd ++ [f] := by
  induction d with
  | nil => simp [addFeat]
  | cons y d ih =>
    obtain ⟨m', l⟩ := y
    unfold addFeat
    split
    · simp only [List.flatMap_cons, List.append_assoc]
      exact (List.perm_append_comm).append_left l
    · simp only [List.flatMap_cons, List.append_assoc]
      exact ih.append_left l

theorem CadOk.add {doc : Doc S} {b : Nat} {cad : List (Int × List Nat)} {pre : List (Item S)} (h : CadOk doc b cad pre) {n m : Int} {s : S} {f : Nat}
    (hf : SB doc b f (.solid ("Cell_".toList ++ Text.strInt n ++ '_' :: Text.strInt m) s)) : CadOk doc b (addFeat cad m f) (pre ++ [.cell n m s]) := by
  refine ⟨?_, fun x hx => ?_⟩
  · rw [addFeat_keys, mats_append]
    simp only [mats]
    rw [firsts_append, h.keys]
  · rw [solidsOf_append]
    rcases addFeat_mem (h.keys ▸ firsts_nodup _) hx with ⟨h1, h2⟩ | ⟨l, h1, rfl⟩ | ⟨h1, rfl⟩
    · rw [show solidsOf x.1 [Item.cell n m s] = [] by rw [solidsOf, if_neg (fun e => h2 e.symm)]; rfl, List.append_nil]
      exact h.vals x h1
    · rw [show solidsOf m [Item.cell n m s] = [_] by rw [solidsOf, if_pos rfl]; rfl]
      exact (h.vals _ h1).append (.cons hf .nil)
    · rw [show solidsOf m [Item.cell n m s] = [_] by rw [solidsOf, if_pos rfl]; rfl]
      rw [h.keys, mem_firsts] at h1
      rw [solidsOf_nil h1]
      exact .cons hf .nil

end Geouned.RCore
