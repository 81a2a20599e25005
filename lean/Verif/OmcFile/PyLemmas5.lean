import Verif.OmcFile.PyLemmas4
/-! # Lemmas for C107: names are defined before they are used -/
namespace Geouned.OmcFile

open Geouned.Text

/-- as `Defined`, with names already defined -/
def DefinedFrom (D : List Char → Prop) (l : List (List PyTok)) : Prop :=
  ∀ pre st post, l = pre ++ st :: post → ∀ w, ObjName w → .word w ∈ st.tail → D w ∨ ∃ rest, (.word w :: .sign '=' :: rest) ∈ pre

theorem defined_append {D : List Char → Prop} {a b : List (List PyTok)} (ha : DefinedFrom D a) (hb : DefinedFrom (fun w => D w ∨ ∃ rest, (.word w :: .sign '=' :: rest) ∈ a) b) :
    DefinedFrom D (a ++ b) := by
  intro pre st post h w hw hm
  rcases List.append_eq_append_iff.mp h with ⟨x, rfl, h2⟩ | ⟨x, rfl, h2⟩
  · rcases hb x st post h2 w hw hm with (h | ⟨rest, h⟩) | ⟨rest, h⟩
    · exact Or.inl h
    · exact Or.inr ⟨rest, List.mem_append_left _ h⟩
    · exact Or.inr ⟨rest, List.mem_append_right _ h⟩
  · cases x with
    | nil =>
      rw [List.nil_append] at h2
      rcases hb [] st post (by rw [← h2]; rfl) w hw hm with (h | ⟨rest, h⟩) | ⟨rest, h⟩
      · exact Or.inl h
      · exact Or.inr ⟨rest, by simpa using h⟩
      · cases h
    | cons y x =>
      rw [List.cons_append] at h2
      obtain ⟨rfl, -⟩ := List.cons.inj h2
      exact ha pre st x rfl w hw hm

theorem defined_all {D : List Char → Prop} {a : List (List PyTok)} (h : ∀ st ∈ a, ∀ w, ObjName w → .word w ∈ st.tail → D w) : DefinedFrom D a := by
  intro pre st post e w hw hm
  exact Or.inl (h st (by rw [e]; simp) w hw hm)

theorem defined_mono {D D' : List Char → Prop} {a : List (List PyTok)} (h : ∀ w, D w → D' w) (ha : DefinedFrom D a) : DefinedFrom D' a := by
  intro pre st post e w hw hm
  rcases ha pre st post e w hw hm with h1 | h1
  · exact Or.inl (h w h1)
  · exact Or.inr h1

/-- a name of an object begins with one of three letters -/
theorem obj_head {w : List Char} (h : ObjName w) : w.head? = some 'M' ∨ w.head? = some 'S' ∨ w.head? = some 'C' := by
  obtain ⟨x, n, hx, d, k, rfl, -⟩ := h
  simpa using hx

theorem mem_inter' {α : Type} {sep : List α} {x : α} : ∀ {l : List (List α)}, x ∈ List.intercalate sep l → x ∈ sep ∨ ∃ t ∈ l, x ∈ t
  | [], h => by simp [List.intercalate] at h
  | [t], h => by right; exact ⟨t, by simp, by simpa [List.intercalate] using h⟩
  | t :: t' :: ts, h => by
    have e : List.intercalate sep (t :: t' :: ts) = t ++ sep ++ List.intercalate sep (t' :: ts) := by simp [List.intercalate, List.intersperse]
    rw [e] at h
    rcases List.mem_append.mp h with h | h
    · rcases List.mem_append.mp h with h | h
      · exact Or.inr ⟨t, by simp, h⟩
      · exact Or.inl h
    · rcases mem_inter' h with h | ⟨u, hu, h⟩
      · exact Or.inl h
      · exact Or.inr ⟨u, List.mem_cons_of_mem _ hu, h⟩

/-- the words of a call -/
theorem call_words {x cls w : List Char} {args : List (List PyTok)} (h : .word w ∈ (call x cls args).tail) : w = cls ∨ ∃ a ∈ args, .word w ∈ a := by
  unfold call at h
  simp only [List.tail_cons, List.mem_cons, reduceCtorEq, false_or, List.mem_append, List.not_mem_nil, or_false, PyTok.word.injEq] at h
  rcases h with h | h
  · exact Or.inl h
  · rcases mem_inter' h with h | h
    · simp at h
    · exact Or.inr h

theorem names_words {l : List (List Char)} {w : List Char} (h : .word w ∈ names l) : w ∈ l := by
  unfold names at h
  simp only [List.mem_cons, reduceCtorEq, false_or, List.mem_append, List.not_mem_nil, or_false] at h
  rcases mem_inter' h with h | ⟨t, ht, h⟩
  · simp at h
  · obtain ⟨v, hv, rfl⟩ := List.mem_map.mp ht
    obtain rfl : w = v := by simpa using h
    exact hv

theorem region_words {ps : List PTok} {w : List Char} (h : .word w ∈ ps.flatMap pyToks) : ∃ neg k, .surf neg k ∈ ps ∧ w = 'S' :: Nat.toDigits 10 k := by
  obtain ⟨p, hp, h⟩ := List.mem_flatMap.mp h
  cases p with
  | surf neg k =>
    simp only [pyToks, List.mem_cons, reduceCtorEq, List.not_mem_nil, or_false, PyTok.word.injEq, false_or] at h
    exact ⟨neg, k, hp, h⟩
  | _ => simp [pyToks] at h

theorem not_obj {w : List Char} {c : Char} (hc : w.head? = some c) (h1 : c ≠ 'M') (h2 : c ≠ 'S') (h3 : c ≠ 'C') : ¬ ObjName w := by
  intro h
  rcases obj_head h with h | h | h <;> (rw [hc] at h; injection h; contradiction)

theorem forall₂_right {α β : Type} {R : α → β → Prop} : ∀ {l : List α} {m : List β}, List.Forall₂ R l m → ∀ b ∈ m, ∃ a ∈ l, R a b
  | _, _, .nil, b, hb => by cases hb
  | _, _, .cons (a := a) h h', b, hb => by
    rcases List.mem_cons.mp hb with rfl | hb
    · exact ⟨a, List.mem_cons_self, h⟩
    · obtain ⟨a', h1, h2⟩ := forall₂_right h' b hb
      exact ⟨a', List.mem_cons_of_mem _ h1, h2⟩

theorem forall₂_left {α β : Type} {R : α → β → Prop} : ∀ {l : List α} {m : List β}, List.Forall₂ R l m → ∀ a ∈ l, ∃ b ∈ m, R a b
  | _, _, .nil, b, hb => by cases hb
  | _, _, .cons (b := b') h h', b, hb => by
    rcases List.mem_cons.mp hb with rfl | hb
    · exact ⟨b', List.mem_cons_self, h⟩
    · obtain ⟨a', h1, h2⟩ := forall₂_left h' b hb
      exact ⟨a', List.mem_cons_of_mem _ h1, h2⟩

theorem stmts_defined {cs : List Cell} {ss : List Surf} {s : Surf} {fs ds : List (List PyTok)} {sl : List PyTok} (hi : ∀ s ∈ ss, 0 ≤ s.index) (hss : ss = ss.dropLast ++ [s])
    (h2 : List.Forall₂ (SurfIs false) ss.dropLast fs) (h3 : SurfIs true s sl) (h4 : List.Forall₂ CellIs (cs.filter (fun c => c.Wanted)) ds)
    (hd : ∀ c ∈ cs, c.Wanted → ∀ k, c.definition.Occurs k → ∃ s ∈ ss, s.index = k) :
    Defined ([[W "import", W "openmc"]] ++ (materialsS (materials cs) ++ (fs ++ ([sl] ++ (ds ++ [call "geometry".toList "openmc.Geometry".toList
        [names ((cs.filter (fun c => c.Wanted)).map (fun c => 'C' :: strInt c.label))], [W "geometry.export_to_xml", .sign '(', .sign ')']]))))) := by
  have key : DefinedFrom (fun _ => False) ([[W "import", W "openmc"]] ++ (materialsS (materials cs) ++ (fs ++ ([sl] ++ (ds ++ [call "geometry".toList "openmc.Geometry".toList
        [names ((cs.filter (fun c => c.Wanted)).map (fun c => 'C' :: strInt c.label))], [W "geometry.export_to_xml", .sign '(', .sign ')']]))))) := by
    have surfOk : ∀ {b : Bool} {s : Surf} {st : List PyTok} {w : List Char}, SurfIs b s st → ObjName w → .word w ∈ st.tail → False := by
      intro b s st w h hw hm
      obtain ⟨args, -, h5, rfl⟩ := h
      rcases call_words hm with rfl | ⟨a, ha, hm⟩
      · exact not_obj (c := 'o') (by
          have : "openmc.".toList = 'o' :: "penmc.".toList := by decide
          rw [this]; rfl) (by decide) (by decide) (by decide) hw
      · rcases List.mem_cons.mp ha with ha | ha
        · rw [ha] at hm
          exact h5 w hw hm
        · cases b
          · simp at ha
          · simp only [if_true, List.mem_singleton] at ha
            subst ha
            simp only [W, List.mem_cons, PyTok.word.injEq, reduceCtorEq, List.not_mem_nil, or_false] at hm
            subst hm
            exact not_obj (c := 'b') (by decide) (by decide) (by decide) (by decide) hw
    have noWord : ∀ {w : List Char} {x : String}, ObjName w → .word w ∈ ([W x, .sign '(', .sign ')'] : List PyTok).tail → False := by
      intro w x _ h
      simp at h
    refine defined_append (defined_all ?_) (defined_append ?_ (defined_append (defined_all ?_) (defined_append (defined_all ?_) (defined_append (defined_all ?_) (defined_all ?_)))))
    · intro st hst w hw hm
      obtain rfl : st = [W "import", W "openmc"] := by simpa using hst
      simp only [W, List.tail_cons, List.mem_singleton, PyTok.word.injEq] at hm
      subst hm
      exact not_obj (c := 'o') (by decide) (by decide) (by decide) (by decide) hw
    · unfold materialsS
      split
      · exact defined_all (by intro st hst; cases hst)
      · refine defined_append (defined_all ?_) (defined_all ?_)
        · intro st hst w hw hm
          obtain ⟨m, -, rfl⟩ := List.mem_map.mp hst
          exfalso
          rcases call_words hm with rfl | ⟨a, ha, hm⟩
          · exact not_obj (c := 'o') (by decide) (by decide) (by decide) (by decide) hw
          · obtain rfl := List.mem_singleton.mp ha
            simp only [W, List.mem_cons, PyTok.word.injEq, reduceCtorEq, List.not_mem_nil, or_false] at hm
            subst hm
            exact not_obj (c := 'n') (by decide) (by decide) (by decide) (by decide) hw
        · intro st hst w hw hm
          simp only [List.mem_cons, List.not_mem_nil, or_false] at hst
          rcases hst with rfl | rfl
          · rcases call_words hm with rfl | ⟨a, ha, hm⟩
            · exact absurd hw (not_obj (c := 'o') (by decide) (by decide) (by decide) (by decide))
            · obtain rfl := List.mem_singleton.mp ha
              obtain ⟨m, hm', rfl⟩ := List.mem_map.mp (names_words hm)
              exact Or.inr ⟨_, List.mem_map.mpr ⟨m, hm', rfl⟩⟩
          · exact absurd hm (fun h => noWord hw h)
    · intro st hst w hw hm
      obtain ⟨s', -, h⟩ := forall₂_right h2 st hst
      exact absurd hm (surfOk h hw)
    · intro st hst w hw hm
      obtain rfl := List.mem_singleton.mp hst
      exact absurd hm (surfOk h3 hw)
    · intro st hst w hw hm
      obtain ⟨c, hc, ps, rfl, -, hocc⟩ := forall₂_right h4 st hst
      rw [List.mem_filter] at hc
      have hcw : c.Wanted := of_decide_eq_true hc.2
      rcases call_words hm with rfl | ⟨a, ha, hm⟩
      · exact absurd hw (not_obj (c := 'o') (by decide) (by decide) (by decide) (by decide))
      · simp only [List.mem_cons, List.mem_append, List.not_mem_nil, or_false] at ha
        rcases ha with rfl | ha | rfl
        · simp only [W, List.mem_cons, PyTok.word.injEq, reduceCtorEq, List.not_mem_nil, or_false] at hm
          subst hm
          exact absurd hw (not_obj (c := 'n') (by decide) (by decide) (by decide) (by decide))
        · by_cases h0 : c.material = 0
          · rw [if_pos h0] at ha
            cases ha
          · rw [if_neg h0] at ha
            obtain rfl := List.mem_singleton.mp ha
            simp only [W, List.mem_cons, PyTok.word.injEq, reduceCtorEq, List.not_mem_nil, or_false, false_or] at hm
            rcases hm with e | e
            · rw [e] at hw
              exact absurd hw (not_obj (c := 'f') (by decide) (by decide) (by decide) (by decide))
            · rw [e]
              have hmat : c.material ∈ materials cs := ((materials_spec cs).2 _).mpr ⟨h0, c, hc.1, rfl⟩
              have hin : matS c.material ∈ materialsS (materials cs) := by
                unfold materialsS
                rw [if_neg (by intro e; rw [e] at hmat; cases hmat)]
                exact List.mem_append_left _ (List.mem_map.mpr ⟨c.material, hmat, rfl⟩)
              left; left; right
              exact ⟨_, hin⟩
        · simp only [W, List.mem_cons, PyTok.word.injEq, reduceCtorEq, false_or] at hm
          rcases hm with rfl | hm
          · exact absurd hw (not_obj (c := 'r') (by decide) (by decide) (by decide) (by decide))
          · obtain ⟨neg, k, hk, rfl⟩ := region_words hm
            obtain ⟨s', hs', hk'⟩ := hd c hc.1 hcw k (hocc neg k hk)
            have e : 'S' :: strInt s'.index = 'S' :: Nat.toDigits 10 k := by
              rw [strInt_nat (hi s' hs'), hk']
              simp
            rw [hss] at hs'
            rcases List.mem_append.mp hs' with hs' | hs'
            · obtain ⟨st, hst, args, -, -, rfl⟩ := forall₂_left h2 s' hs'
              left; right
              rw [← e]
              exact ⟨_, hst⟩
            · obtain rfl := List.mem_singleton.mp hs'
              obtain ⟨args, -, -, rfl⟩ := h3
              right
              rw [← e]
              exact ⟨_, List.mem_singleton.mpr rfl⟩
    · intro st hst w hw hm
      simp only [List.mem_cons, List.not_mem_nil, or_false] at hst
      rcases hst with rfl | rfl
      · rcases call_words hm with rfl | ⟨a, ha, hm⟩
        · exact absurd hw (not_obj (c := 'o') (by decide) (by decide) (by decide) (by decide))
        · obtain rfl := List.mem_singleton.mp ha
          obtain ⟨c, hc, rfl⟩ := List.mem_map.mp (names_words hm)
          obtain ⟨st, hst, ps, rfl, -⟩ := forall₂_left h4 c hc
          exact Or.inr ⟨_, hst⟩
      · exact absurd hm (fun h => noWord hw h)
  intro pre st post e w hw hm
  rcases key pre st post e w hw hm with h | h
  · exact h.elim
  · exact h

end Geouned.OmcFile
