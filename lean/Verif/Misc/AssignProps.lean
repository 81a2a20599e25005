import Verif.Misc.AssignLemmas
import Verif.Misc.EnclProps
/-!
# Properties C61 (solids are given to the enclosures they reach), C62 (void cells name their enclosure), C63 (void with enclosures fills the universe)
-/
namespace Geouned.Encl

/-! ### C61 -/

/-- C61 in full: a solid that reaches into the own region of an enclosure is considered when the void of that enclosure is made, and one that reaches out of
all enclosures is considered for the void of the universe (identifier -1). -/
def C61_statement : Prop :=
  ∀ (P : Type) (es : List Encl) (reg : Encl → P → Prop) (fuel : Nat) (ns : List (List Encl)) (ss : List (Encl × List Encl)) (S : P → Prop)
    (inter : Encl → Int), Hierarchy es → Placed es reg → setLevels fuel es = .ok (ns, ss) → Answers es reg S inter →
    (∀ e ∈ es, ∀ p, S p → Own es reg e p → (e.id : Int) ∈ (assign inter ns).dep) ∧
    (∀ p, S p → (∀ e ∈ es, ¬ reg e p) → (-1 : Int) ∈ (assign inter ns).dep)

/-- C61 is false of the code: the answer -2 (the enclosure is embedded in the solid) is not handled, the solid is not considered in the enclosure and the void
made there overlaps the solid. Points 0 and 1; the enclosure holds 0, the solid both. -/
theorem C61_embedded_violated : ¬ C61_statement := by
  intro h
  have := (h Bool [⟨1, 0⟩] (fun _ p => p = false) 1 [[⟨1, 0⟩], []] [(⟨1, 0⟩, [])] (fun _ => True) (fun _ => -2) ?_ ?_ rfl ?_).1 ⟨1, 0⟩ (by simp) false trivial
    ⟨rfl, by simp⟩
  · revert this; decide
  · exact ⟨by simp, by simp, by simp, fun e he => ⟨1, by simp at he; subst he; exact .top (by simp) rfl⟩⟩
  · exact ⟨by simp, by simp⟩
  · refine ⟨?_, ?_, ?_, ?_⟩ <;> simp

section
variable {P : Type} {es : List Encl} {reg : Encl → P → Prop} {S : P → Prop} {inter : Encl → Int}

/-- the facts of C41 used below -/
theorem split_level {ls : List (List Encl)} (hmem : ∀ (i : Nat) (hi : i < ls.length) (e : Encl), e ∈ ls[i] ↔ Depth es e (i + 1))
    {e : Encl} {k : Nat} (hd : Depth es e k) (hk : k ≤ ls.length) :
    ∃ A l B, (ls ++ [[]]).reverse = A ++ l :: B ∧ e ∈ l ∧ (∀ F ∈ l, Depth es F k) ∧ (∀ a ∈ A, ∀ F ∈ a, ∃ j, k < j ∧ Depth es F j) := by
  have hpos := hd.pos
  have hi : k - 1 < ls.length := by omega
  refine ⟨[] :: (ls.drop k).reverse, ls[k - 1], (ls.take (k - 1)).reverse, ?_, ?_, ?_, ?_⟩
  · have : ls = ls.take (k - 1) ++ ls[k - 1] :: ls.drop k := by
      have h1 := List.take_append_drop (k - 1) ls
      have h2 := List.drop_eq_getElem_cons hi
      rw [show k - 1 + 1 = k by omega] at h2
      rw [h2] at h1
      exact h1.symm
    conv => lhs; rw [this]
    simp
  · exact (hmem _ hi e).2 (by rw [show k - 1 + 1 = k by omega]; exact hd)
  · intro F hF
    have := (hmem _ hi F).1 hF
    rwa [show k - 1 + 1 = k by omega] at this
  · intro a ha F hF
    rcases List.mem_cons.1 ha with rfl | ha
    · cases hF
    · rw [List.mem_reverse] at ha
      obtain ⟨n, hn, rfl⟩ := List.getElem_of_mem ha
      simp only [List.getElem_drop] at hF
      rw [List.length_drop] at hn
      exact ⟨k + n + 1, by omega, (hmem (k + n) (by omega) F).1 hF⟩

theorem depth_le {ls : List (List Encl)} (hperm : ls.flatten.Perm es)
    (hmem : ∀ (i : Nat) (hi : i < ls.length) (e : Encl), e ∈ ls[i] ↔ Depth es e (i + 1)) (huniq : ∀ e j k, Depth es e j → Depth es e k → j = k)
    {e : Encl} {k : Nat} (hd : Depth es e k) : k ≤ ls.length := by
  obtain ⟨l, hl, he⟩ := List.mem_flatten.1 (hperm.mem_iff.2 hd.mem)
  obtain ⟨n, hn, rfl⟩ := List.getElem_of_mem hl
  have := huniq e _ _ hd ((hmem n hn e).1 he)
  omega

theorem depth_unique (h : Hierarchy es) : ∀ e j k, Depth es e j → Depth es e k → j = k := by
  intro e j k hj hk
  have a := ((least_iff_depth h).2 hj).2 k hk
  have b := ((least_iff_depth h).2 hk).2 j hj
  omega

end

/-- C61, proved part: no enclosure lies inside the solid (answer -2 never given), at any depth. Then the solid is considered in the own region of each
enclosure it reaches, and in the universe when it reaches out of all enclosures; the latter holds also of solids with enclosures inside. Nothing
else: it is considered only in enclosures it has points in, and in the universe only when it is in no enclosure completely. Its `ParentEnclosureID` is
one of those. -/
theorem C61_assign_partial {P : Type} (es : List Encl) (reg : Encl → P → Prop) (fuel : Nat) (ns : List (List Encl)) (ss : List (Encl × List Encl))
    (S : P → Prop) (inter : Encl → Int) (hh : Hierarchy es) (hf : es.length ≤ fuel) (hp : Placed es reg) (hn : setLevels fuel es = .ok (ns, ss))
    (ha : Answers es reg S inter) :
    ((∀ e ∈ es, inter e ≠ -2) → ∀ e ∈ es, ∀ p, S p → Own es reg e p → (e.id : Int) ∈ (assign inter ns).dep) ∧
    (∀ p, S p → (∀ e ∈ es, ¬ reg e p) → (-1 : Int) ∈ (assign inter ns).dep) ∧
    (∀ e ∈ es, (e.id : Int) ∈ (assign inter ns).dep → ∃ p, S p ∧ reg e p) ∧
    ((-1 : Int) ∈ (assign inter ns).dep → ∀ p, S p → ∀ e ∈ es, (∀ p, S p → reg e p) → e.parent = 0 → False) ∧
    (assign inter ns).parent ∈ (assign inter ns).dep := by
  obtain ⟨ls, ss', h1, hperm, hmem, -, -⟩ := C41_levels es hh fuel hf
  rw [hn] at h1
  simp only [Except.ok.injEq, Prod.mk.injEq] at h1
  obtain ⟨rfl, rfl⟩ := h1
  have huniq := depth_unique hh
  have hle : ∀ {e k}, Depth es e k → k ≤ ls.length := fun hd => depth_le hperm hmem huniq hd
  have hflat : ∀ l ∈ (ls ++ [[]]).reverse, ∀ e ∈ l, e ∈ es := by
    intro l hl e he
    rw [List.mem_reverse] at hl
    rcases List.mem_append.1 hl with hl | hl
    · exact hperm.mem_iff.1 (List.mem_flatten.2 ⟨l, hl, he⟩)
    · simp at hl; subst hl; cases he
  have hin : ∀ e ∈ es, inter e = -1 → ∀ p, S p → reg e p := fun e he hi => ((ha.inside e he).1 hi).2
  have hmeet : ∀ e ∈ es, (inter e = 0 ∨ inter e = -1) → ∃ p, S p ∧ reg e p := by
    rintro e he (h | h)
    · exact ((ha.partly e he).1 h).1
    · exact ((ha.inside e he).1 h).1
  have hans : ∀ e ∈ es, (∃ p, S p ∧ reg e p) → inter e = 0 ∨ inter e = -1 ∨ inter e = -2 := by
    intro e he hm
    by_cases h1 : ∀ p, S p → reg e p
    · exact .inr (.inl ((ha.inside e he).2 ⟨hm, h1⟩))
    · by_cases h2 : ∀ p, reg e p → S p
      · exact .inr (.inr ((ha.around e he).2 ⟨hm, h1, h2⟩))
      · exact .inl ((ha.partly e he).2 ⟨hm, h1, h2⟩)
  refine ⟨?_, ?_, ?_, ?_, assign_parent _ _⟩
  · intro h2 e he p hS ho
    apply assign_of_mem
    obtain ⟨k, hd⟩ := hh.2.2.2 e he
    obtain ⟨A, l, B, e1, e2, e3, e4⟩ := split_level hmem hd (hle hd)
    rw [e1]
    refine levelsLoop_mem ?_ A l B _ ?_ e2 ?_
    · rcases hans e he ⟨p, hS, ho.1⟩ with h | h | h
      · exact .inl h
      · exact .inr h
      · exact absurd h (h2 e he)
    · intro a ha' F hF hi
      obtain ⟨j, hj, hFd⟩ := e4 a ha' F hF
      rcases own_depth hp hd ho hFd (hin F hFd.mem hi p hS) with h | ⟨h, _⟩ <;> omega
    · intro F hF hi
      exact same_depth hp (e3 F hF) hd (hin F (e3 F hF).mem hi p hS) ho.1
  · intro p hS hout
    have hno : ∀ a ∈ (ls ++ [[]]).reverse, ∀ F ∈ a, inter F ≠ -1 := by
      intro a ha' F hF hi
      exact hout F (hflat a ha' F hF) (hin F (hflat a ha' F hF) hi p hS)
    by_cases hdep : (levelsLoop inter (ls ++ [[]]).reverse ⟨[], 0⟩).dep = []
    · unfold assign
      simp only [hdep, List.isEmpty_nil, if_true]
      exact Dep.mem_add.2 (.inr rfl)
    · apply assign_of_mem
      obtain ⟨x, hx⟩ := List.exists_mem_of_ne_nil _ hdep
      have hsome : ∃ l ∈ (ls ++ [[]]).reverse, ∃ e ∈ l, inter e = 0 := by
        rcases levelsLoop_exact _ _ hx with h | ⟨l, hl, e, he, _, h⟩ | ⟨_, h⟩
        · cases h
        · rcases h with h | h
          · exact ⟨l, hl, e, he, h⟩
          · exact absurd h (hno l hl e he)
        · exact h
      obtain ⟨l, hl, F, hF, hF0⟩ := hsome
      have hFes := hflat l hl F hF
      -- the ancestor of F at depth 1 is met, and gives 0
      obtain ⟨k, hk⟩ := hh.2.2.2 F hFes
      have hanc : ∃ a, Depth es a 1 ∧ ∀ q, reg F q → reg a q := by
        by_cases h1 : k = 1
        · subst h1; exact ⟨F, hk, fun _ h => h⟩
        · obtain ⟨a, b, x1, _, _, x4⟩ := ancestor hp hk 1 (le_refl 1) (by have := hk.pos; omega)
          exact ⟨a, x1, fun q hq => (x4 q hq).2⟩
      obtain ⟨a, ha1, haF⟩ := hanc
      obtain ⟨q, hSq, hFq⟩ := hmeet F hFes (.inl hF0)
      have ha0 : inter a = 0 := by
        rcases hans a ha1.mem ⟨q, hSq, haF q hFq⟩ with h | h | h
        · exact h
        · exact absurd (hin a ha1.mem h p hS) (hout a ha1.mem)
        · exact absurd (fun r hr => ((ha.around a ha1.mem).1 h).2.2 r (haF r hr)) ((ha.partly F hFes).1 hF0).2.2
      obtain ⟨A, l1, B, e1, e2, e3, e4⟩ := split_level hmem ha1 (hle ha1)
      -- depth 1 is the first level
      have hls : 0 < ls.length := hle ha1
      obtain ⟨l0, ls', rfl⟩ := List.exists_cons_of_ne_nil (List.ne_nil_of_length_pos hls)
      have : ((l0 :: ls') ++ [[]]).reverse = (ls' ++ [[]]).reverse ++ [l0] := by simp
      rw [this] at hno ⊢
      refine levelsLoop_top _ l0 _ hno ⟨a, ?_, ha0⟩
      exact (hmem 0 (by simp) a).2 ha1
  · intro e he hm
    unfold assign at hm
    dsimp only at hm
    have key : (e.id : Int) ∈ (levelsLoop inter (ls ++ [[]]).reverse ⟨[], 0⟩).dep → ∃ p, S p ∧ reg e p := by
      intro hx
      rcases levelsLoop_exact _ _ hx with h | ⟨l, hl, F, hF, hid, h⟩ | ⟨h, _⟩
      · cases h
      · have hFe : F = e := by
          have hnd := hh.2.2.1
          exact id_inj hnd (hflat l hl F hF) he (by omega)
        subst hFe
        exact hmeet F he h
      · omega
    split at hm
    · rcases Dep.mem_add.1 hm with h | h
      · exact key h
      · omega
    · exact key hm
  · intro hm p hS e he hall h0
    -- e at depth 1 holds the solid: the loop stops there, -1 is not added
    have hinE : inter e = -1 := (ha.inside e he).2 ⟨⟨p, hS, hall p hS⟩, hall⟩
    have hd1 : Depth es e 1 := .top he h0
    have hne : (levelsLoop inter (ls ++ [[]]).reverse ⟨[], 0⟩).dep ≠ [] → False := by
      intro hne
      have hx : (-1 : Int) ∈ (levelsLoop inter (ls ++ [[]]).reverse ⟨[], 0⟩).dep := by
        unfold assign at hm
        dsimp only at hm
        rw [if_neg (by simpa using hne)] at hm
        exact hm
      have hls : 0 < ls.length := hle hd1
      obtain ⟨l0, ls', rfl⟩ := List.exists_cons_of_ne_nil (List.ne_nil_of_length_pos hls)
      have e1 : ((l0 :: ls') ++ [[]]).reverse = (ls' ++ [[]]).reverse ++ [l0] := by simp
      rw [e1] at hx
      have hl0 : ∀ F ∈ l0, inter F ≠ 0 := by
        intro F hF hF0
        have hFd := (hmem 0 (by simp) F).1 hF
        obtain ⟨q, hq, hFq⟩ := hmeet F hFd.mem (.inl hF0)
        have := same_depth hp hFd hd1 hFq (hall q hq)
        subst this
        omega
      have := noTop (ls' ++ [[]]).reverse l0 _ hl0 hx
      cases this
    by_cases hdep : (levelsLoop inter (ls ++ [[]]).reverse ⟨[], 0⟩).dep = []
    · -- the loop has met e (or stopped before with an enclosure)
      have hls : 0 < ls.length := hle hd1
      obtain ⟨l0, ls', rfl⟩ := List.exists_cons_of_ne_nil (List.ne_nil_of_length_pos hls)
      have e1 : ((l0 :: ls') ++ [[]]).reverse = (ls' ++ [[]]).reverse ++ [l0] := by simp
      rw [e1] at hdep
      have hel : e ∈ l0 := (hmem 0 (by simp) e).2 hd1
      exact nonempty_of_inside (ls' ++ [[]]).reverse l0 _ ⟨e, hel, hinE⟩ hdep
    · exact hne hdep
where
  id_inj : ∀ {l : List Encl} {a b : Encl}, (l.map Encl.id).Nodup → a ∈ l → b ∈ l → a.id = b.id → a = b := by
    intro l
    induction l with
    | nil => intro a b _ h; cases h
    | cons x l ih =>
      intro a b hn ha hb hab
      simp only [List.map_cons, List.nodup_cons, List.mem_map, not_exists, not_and] at hn
      rcases List.mem_cons.1 ha with ha' | ha' <;> rcases List.mem_cons.1 hb with hb' | hb'
      · rw [ha', hb']
      · subst ha'; exact absurd hab.symm (hn.1 b hb')
      · subst hb'; exact absurd hab (hn.1 a ha')
      · exact ih hn.2 ha' hb' hab
  noTop {inter : Encl → Int} : ∀ (A : List (List Encl)) (l0 : List Encl) (d : Dep), (∀ F ∈ l0, inter F ≠ 0) →
      (-1 : Int) ∈ (levelsLoop inter (A ++ [l0]) d).dep → (-1 : Int) ∈ d.dep
    | [], l0, d, h, hx => by
      simp only [List.nil_append, levelsLoop, List.isEmpty_nil, ite_self] at hx
      rcases levelLoop_exact l0 d hx with h1 | ⟨e, _, h1, _⟩ | ⟨_, _, e, he, h1⟩
      · exact h1
      · omega
      · exact absurd h1 (h e he)
    | a :: A, l0, d, h, hx => by
      simp only [List.cons_append, levelsLoop] at hx
      have hf : (A ++ [l0]).isEmpty = false := by cases A <;> rfl
      rw [hf] at hx
      have one : (-1 : Int) ∈ (levelLoop inter false a d).1.dep → (-1 : Int) ∈ d.dep := by
        intro h'
        rcases levelLoop_exact a d h' with h1 | ⟨e, _, h1, _⟩ | ⟨_, h1, _⟩
        · exact h1
        · omega
        · cases h1
      split at hx
      · exact one hx
      · exact one (noTop A l0 _ h hx)
  nonempty_of_inside {inter : Encl → Int} : ∀ (A : List (List Encl)) (l0 : List Encl) (d : Dep), (∃ F ∈ l0, inter F = -1) →
      (levelsLoop inter (A ++ [l0]) d).dep = [] → False
    | [], l0, d, h, hx => by
      simp only [List.nil_append, levelsLoop, List.isEmpty_nil, ite_self] at hx
      exact stopNonempty l0 d h hx
    | a :: A, l0, d, h, hx => by
      simp only [List.cons_append, levelsLoop] at hx
      split at hx
      · next hs => exact stopNonempty a d ((levelLoop_stop a d).1 hs) hx
      · exact nonempty_of_inside A l0 _ h hx
  stopNonempty {inter : Encl → Int} {top : Bool} : ∀ (l : List Encl) (d : Dep), (∃ F ∈ l, inter F = -1) → (levelLoop inter top l d).1.dep = [] → False
    | [], d, h, _ => by obtain ⟨F, h, _⟩ := h; cases h
    | e :: es, d, h, hx => by
      have ne : ∀ (d : Dep) x, (d.add x).dep ≠ [] := fun d x he => by
        have := (Dep.mem_add (d := d) (x := x) (y := x)).2 (.inr rfl)
        rw [he] at this; cases this
      simp only [levelLoop] at hx
      split at hx
      · next h0 =>
        have h' : ∃ F ∈ es, inter F = -1 := by
          obtain ⟨F, hF, hi⟩ := h
          rcases List.mem_cons.1 hF with rfl | hF
          · omega
          · exact ⟨F, hF, hi⟩
        split at hx
        · exact stopNonempty es _ h' hx
        · exact stopNonempty es _ h' hx
      · split at hx
        · exact ne _ _ hx
        · next h1 =>
          obtain ⟨F, hF, hi⟩ := h
          rcases List.mem_cons.1 hF with rfl | hF
          · exact absurd hi h1
          · exact stopNonempty es d ⟨F, hF, hi⟩ hx

/-- a case of `C61_assign_partial`: enclosure 2 inside enclosure 1, the points 0 (outside), 1 (in 1 only), 2, 3 (in both); the solid holds 0, 1 and 2:
it is considered in the three regions -/
example : ∃ (es : List Encl) (reg : Encl → Fin 4 → Prop) (ns : List (List Encl)) (ss : List (Encl × List Encl)) (S : Fin 4 → Prop) (inter : Encl → Int),
    Hierarchy es ∧ Placed es reg ∧ setLevels 2 es = .ok (ns, ss) ∧ Answers es reg S inter ∧ (∀ e ∈ es, inter e ≠ -2) ∧
    (assign inter ns).dep = [2, 1, -1] := by
  refine ⟨[⟨1, 0⟩, ⟨2, 1⟩], fun e p => e.id ≤ p, [[⟨1, 0⟩], [⟨2, 1⟩], []], [(⟨1, 0⟩, [⟨2, 1⟩]), (⟨2, 1⟩, [])], fun p => p ≠ 3, fun _ => 0,
    ?_, ⟨?_, ?_⟩, rfl, ⟨?_, ?_, ?_, ?_⟩, by simp, by decide⟩
  · have d1 : Depth [⟨1, 0⟩, ⟨2, 1⟩] ⟨1, 0⟩ 1 := .top (by decide) rfl
    have d2 : Depth [⟨1, 0⟩, ⟨2, 1⟩] ⟨2, 1⟩ 2 := .sub (by decide) d1 rfl
    refine ⟨by simp, by simp, by decide, fun e he => ?_⟩
    simp only [List.mem_cons, List.not_mem_nil, or_false] at he
    rcases he with rfl | rfl
    · exact ⟨_, d1⟩
    · exact ⟨_, d2⟩
  all_goals decide

/-! ### C62 -/

/-- C62: the void generation with enclosures always ends with a list of cells; they are numbered in sequence after `init`, and each of them, in the order in
which they were made, has the identifiers of the enclosure for which it was made and of the parent of that enclosure; the cells of the universe and the
graveyard have 0 and -1. No cell is lost or repeated. -/
theorem C62_void_numbered {γ : Type} (getVoid : Option Encl → List Obj → List γ) (envelope : Encl → Bool) (sonsOf : Encl → List Encl)
    (nested : List (List Encl)) (ms : List Sol) (grave : List γ) (init : Int) :
    ∃ cs, voidGeneration getVoid envelope sonsOf nested ms grave init = some cs ∧
      (∀ (i : Nat) (h : i < cs.length), cs[i].id = init + 1 + i) ∧
      cs.map (fun c => (c.encl, c.parent, c.cell)) =
        (getVoid none (select nested (nested.headD []) (-1) ms)).map (fun c => (0, -1, c)) ++
        ((nested.flatten.filter fun e => !envelope e).flatMap fun e =>
          (getVoid (some e) (select nested (sonsOf e) e.id ms)).map fun c => ((e.id : Int), (e.parent : Int), c)) ++
        grave.map (fun c => (0, -1, c)) := by
  unfold voidGeneration voidLists updateVoidList
  have hlast : ∀ (a : List γ) (b : List (List γ)), (a :: b ++ [grave]).getLast? = some grave := by intro a b; rw [List.getLast?_append]; simp
  simp only [List.cons_append]
  rw [← List.cons_append, hlast]
  generalize hv : getVoid none (select nested (nested.headD []) (-1) ms) = v0
  obtain ⟨r, h1, h2, h3⟩ := numberEncls_eq (fun e => getVoid (some e) (select nested (sonsOf e) e.id ms)) [grave] (init + 1 + v0.length)
    (nested.flatten.filter fun e => !envelope e)
  dsimp only [List.cons_append]
  rw [h1]
  refine ⟨_, rfl, ?_, ?_⟩
  · have hl := numberVoids_length (γ := γ) 0 (-1) (init + 1) v0
    refine Seq.append (Seq.append (numberVoids_eq _ _ _ _).2 (by rw [hl]; exact h2)) ?_
    intro i hi
    have := (numberVoids_eq (γ := γ) 0 (-1) (init + 1 + v0.length + r.length) grave).2 i hi
    rw [this]; simp [hl]; omega
  · simp [h3, (numberVoids_eq (γ := γ) _ _ _ _).1]

/-- a case of C62: 1 holds 2, 2 is an envelope: cells of the universe, of 1 and the graveyard -/
example : (voidGeneration (fun o _ => match o with | none => ["u1", "u2"] | some e => [s!"v{e.id}"]) (fun e => e.id == 2) (fun _ => [])
    [[⟨1, 0⟩], [⟨2, 1⟩, ⟨3, 1⟩], []] [] ["g"] 10).map (fun cs => cs.map fun c => (c.id, c.encl, c.parent, c.cell)) =
    some [(11, 0, -1, "u1"), (12, 0, -1, "u2"), (13, 1, 0, "v1"), (14, 3, 1, "v3"), (15, 0, -1, "g")] := by
  rfl

/-! ### C63 -/

/-- C63 in full: the void cells and the solids share out the universe. If the enclosures are placed as their labels say, the answers of `check_intersection`
are right, and each void made for an enclosure (or the universe) holds once each of its points that is in none of the objects it was given (and nothing
else), then a point of the universe is in exactly one void cell when it is in no solid and the innermost enclosure around it, if any, is not an
envelope, and in no void cell otherwise. -/
def C63_statement : Prop :=
  ∀ (P γ : Type) (holds : γ → P → Bool) (U : P → Prop) (es : List Encl) (reg : Encl → P → Prop) (fuel : Nat)
    (ns : List (List Encl)) (ss : List (Encl × List Encl)) (sonsOf : Encl → List Encl) (S : Sol → P → Prop) (ms : List Sol)
    (getVoid : Option Encl → List Obj → List γ) (envelope : Encl → Bool) (grave : List γ) (init : Int),
    Hierarchy es → es.length ≤ fuel → Placed es reg → setLevels fuel es = .ok (ns, ss) → (∀ e ∈ es, (e, sonsOf e) ∈ ss) →
    (∀ m ∈ ms, Answers es reg (S m) m.inter) →
    Fills holds U ((select ns (ns.headD []) (-1) ms).map (Obj.pts reg S)) (getVoid none (select ns (ns.headD []) (-1) ms)) →
    (∀ e ∈ es, envelope e = false →
      Fills holds (reg e) ((select ns (sonsOf e) e.id ms).map (Obj.pts reg S)) (getVoid (some e) (select ns (sonsOf e) e.id ms))) →
    (∀ c ∈ grave, ∀ p, U p → holds c p = false) →
    ∃ cs, voidGeneration getVoid envelope sonsOf ns ms grave init = some cs ∧ ∀ p, U p →
      (((∀ m ∈ ms, ¬ S m p) ∧ (∀ e ∈ es, Own es reg e p → envelope e = false)) → cs.countP (fun c => holds c.cell p) = 1) ∧
      (¬ ((∀ m ∈ ms, ¬ S m p) ∧ (∀ e ∈ es, Own es reg e p → envelope e = false)) → cs.countP (fun c => holds c.cell p) = 0)

/-- C63 is false of the code: the enclosure (point `false`) lies inside the solid (both points); the solid is not considered in it, and the void of the enclosure
overlaps the solid -/
theorem C63_embedded_violated : ¬ C63_statement := by
  intro h
  obtain ⟨cs, h1, h2⟩ := h Bool Bool (fun c p => c == p) (fun _ => True) [⟨1, 0⟩] (fun _ p => p = false) 1 [[⟨1, 0⟩], []] [(⟨1, 0⟩, [])] (fun _ => [])
    (fun _ _ => True) [⟨7, fun _ => -2⟩] (fun o _ => if o.isSome then [false] else []) (fun _ => false) [] 0
    ⟨by simp, by simp, by simp, fun e he => ⟨1, by simp at he; subst he; exact .top (by simp) rfl⟩⟩ (by simp) ⟨by simp, by simp⟩ rfl (by simp)
    (by intro m hm; simp only [List.mem_singleton] at hm; subst hm; exact ⟨by simp, by simp, by simp, by simp⟩)
    (by
      have : select [[⟨1, 0⟩], []] [⟨1, 0⟩] (-1) [⟨7, fun _ => -2⟩] = [.encl ⟨1, 0⟩, .sol ⟨7, fun _ => -2⟩] := rfl
      rw [show ([[⟨1, 0⟩], []] : List (List Encl)).headD [] = [⟨1, 0⟩] from rfl, this]
      intro p; simp [Obj.pts])
    (by
      intro e he _
      simp only [List.mem_singleton] at he; subst he
      have : select [[⟨1, 0⟩], []] [] ((1 : Nat) : Int) [⟨7, fun _ => -2⟩] = [] := rfl
      rw [this]
      intro p; cases p <;> simp)
    (by simp)
  have e1 : cs = [⟨1, 1, 0, false⟩] := by
    have : voidGeneration (fun o _ => if o.isSome then [false] else []) (fun _ => false) (fun _ => []) [[⟨1, 0⟩], []] [⟨7, fun _ => -2⟩] [] 0 =
      some [⟨1, 1, 0, false⟩] := rfl
    rw [this] at h1
    exact (Option.some.inj h1).symm
  subst e1
  have := (h2 false trivial).2 (by simp)
  revert this; decide

/-- C63, proved part: when no solid holds a whole enclosure it reaches out of (answer -2 of `check_intersection`) -/
theorem C63_void_with_enclosures_partial {P γ : Type} (holds : γ → P → Bool) (U : P → Prop) (es : List Encl) (reg : Encl → P → Prop) (fuel : Nat)
    (ns : List (List Encl)) (ss : List (Encl × List Encl)) (sonsOf : Encl → List Encl) (S : Sol → P → Prop) (ms : List Sol)
    (getVoid : Option Encl → List Obj → List γ) (envelope : Encl → Bool) (grave : List γ) (init : Int)
    (hh : Hierarchy es) (hf : es.length ≤ fuel) (hp : Placed es reg) (hn : setLevels fuel es = .ok (ns, ss))
    (hsons : ∀ e ∈ es, (e, sonsOf e) ∈ ss)
    (ha : ∀ m ∈ ms, Answers es reg (S m) m.inter) (h2 : ∀ m ∈ ms, ∀ e ∈ es, m.inter e ≠ -2)
    (hU : Fills holds U ((select ns (ns.headD []) (-1) ms).map (Obj.pts reg S)) (getVoid none (select ns (ns.headD []) (-1) ms)))
    (hE : ∀ e ∈ es, envelope e = false →
      Fills holds (reg e) ((select ns (sonsOf e) e.id ms).map (Obj.pts reg S)) (getVoid (some e) (select ns (sonsOf e) e.id ms)))
    (hg : ∀ c ∈ grave, ∀ p, U p → holds c p = false) :
    ∃ cs, voidGeneration getVoid envelope sonsOf ns ms grave init = some cs ∧ ∀ p, U p →
      (((∀ m ∈ ms, ¬ S m p) ∧ (∀ e ∈ es, Own es reg e p → envelope e = false)) → cs.countP (fun c => holds c.cell p) = 1) ∧
      (¬ ((∀ m ∈ ms, ¬ S m p) ∧ (∀ e ∈ es, Own es reg e p → envelope e = false)) → cs.countP (fun c => holds c.cell p) = 0) := by
  obtain ⟨cs, hcs, -, hmap⟩ := C62_void_numbered getVoid envelope sonsOf ns ms grave init
  refine ⟨cs, hcs, ?_⟩
  intro p hUp
  have hassign := fun m hm => C61_assign_partial es reg fuel ns ss (S m) m.inter hh hf hp hn (ha m hm)
  obtain ⟨ls, ss', h1, hperm, hmem, -, hsp⟩ := C41_levels es hh fuel hf
  rw [hn] at h1
  simp only [Except.ok.injEq, Prod.mk.injEq] at h1
  obtain ⟨rfl, rfl⟩ := h1
  have huniq := depth_unique hh
  have hle : ∀ e k, Depth es e k → k ≤ ls.length := fun e k hd => depth_le hperm hmem huniq hd
  -- the count
  have hcount : cs.countP (fun c => holds c.cell p) =
      (getVoid none (select (ls ++ [[]]) ((ls ++ [[]]).headD []) (-1) ms)).countP (holds · p) +
      (((ls ++ [[]]).flatten.filter fun e => !envelope e).flatMap fun e =>
        getVoid (some e) (select (ls ++ [[]]) (sonsOf e) e.id ms)).countP (holds · p) := by
    have hc : cs.map (fun c => c.cell) = getVoid none (select (ls ++ [[]]) ((ls ++ [[]]).headD []) (-1) ms) ++
        (((ls ++ [[]]).flatten.filter fun e => !envelope e).flatMap fun e => getVoid (some e) (select (ls ++ [[]]) (sonsOf e) e.id ms)) ++ grave := by
      have := congrArg (List.map fun t : Int × Int × γ => t.2.2) hmap
      simpa [List.map_flatMap, Function.comp_def] using this
    have hz : grave.countP (holds · p) = 0 := by
      rw [List.countP_eq_zero]
      intro c hc'
      simp [hg c hc' p hUp]
    have e1 : cs.countP (fun c => holds c.cell p) = (cs.map fun c => c.cell).countP (holds · p) := by rw [List.countP_map]; rfl
    rw [e1, hc, List.countP_append, List.countP_append, hz, Nat.add_zero]
  have hhead : ∀ e, e ∈ (ls ++ [[]]).headD [] ↔ e ∈ es ∧ e.parent = 0 := by
    intro e
    have hls : 0 < ls.length := by
      obtain ⟨e0, he0⟩ := List.exists_mem_of_ne_nil _ hh.1
      obtain ⟨k, hk⟩ := hh.2.2.2 e0 he0
      have := hle e0 k hk
      have := hk.pos
      omega
    obtain ⟨l0, ls', rfl⟩ := List.exists_cons_of_ne_nil (List.ne_nil_of_length_pos hls)
    have := hmem 0 (by simp) e
    simp only [List.getElem_cons_zero, Nat.zero_add] at this
    simp only [List.cons_append, List.headD_cons, this]
    exact ⟨fun h => ⟨h.mem, depth_one h⟩, fun h => .top h.1 h.2⟩
  -- the universe
  have zeroU : ¬ ((∀ e ∈ es, ¬ reg e p) ∧ ∀ m ∈ ms, ¬ S m p) →
      (getVoid none (select (ls ++ [[]]) ((ls ++ [[]]).headD []) (-1) ms)).countP (holds · p) = 0 := by
    intro hno
    refine (hU p).2 fun hall => hno ?_
    have hsel : ∀ o ∈ select (ls ++ [[]]) ((ls ++ [[]]).headD []) (-1) ms, ¬ o.pts reg S p := fun o ho =>
      hall.2 _ (List.mem_map.2 ⟨o, ho, rfl⟩)
    have hne : ∀ e ∈ es, ¬ reg e p := by
      intro e he hr
      obtain ⟨k, hk⟩ := hh.2.2.2 e he
      obtain ⟨a, ha1, ha2, ha3⟩ := top_holds hp hk hr
      exact hsel (.encl a) (by simp only [select, List.mem_append, List.mem_map]; exact .inl ⟨a, (hhead a).2 ⟨ha1, ha2⟩, rfl⟩) ha3
    refine ⟨hne, fun m hm hS => ?_⟩
    have hd := (hassign m hm).2.1 p hS hne
    exact hsel (.sol m) (by
      simp only [select, List.mem_append, List.mem_map, List.mem_filter, decide_eq_true_eq]
      exact .inr ⟨m, ⟨hm, hd⟩, rfl⟩) hS
  have oneU : (∀ e ∈ es, ¬ reg e p) → (∀ m ∈ ms, ¬ S m p) →
      (getVoid none (select (ls ++ [[]]) ((ls ++ [[]]).headD []) (-1) ms)).countP (holds · p) = 1 := by
    intro hne hS
    refine (hU p).1 ⟨hUp, ?_⟩
    simp only [select, List.map_append, List.map_map, List.mem_append, List.mem_map, List.mem_filter]
    rintro o (⟨e, he, rfl⟩ | ⟨m, hm, rfl⟩)
    · exact hne e ((hhead e).1 he).1
    · exact hS m hm.1
  -- one enclosure
  have hson : ∀ e ∈ es, ∀ c, c ∈ sonsOf e ↔ c ∈ es ∧ c.parent = e.id := by
    intro e he c
    have := (hsp e (sonsOf e) (hsons e he)).2
    rw [this.mem_iff]
    simp
  have zeroE : ∀ e ∈ es, envelope e = false → ¬ (Own es reg e p ∧ ∀ m ∈ ms, ¬ S m p) →
      (getVoid (some e) (select (ls ++ [[]]) (sonsOf e) e.id ms)).countP (holds · p) = 0 := by
    intro e he hv hno
    refine (hE e he hv p).2 fun hall => hno ?_
    have hsel : ∀ o ∈ select (ls ++ [[]]) (sonsOf e) e.id ms, ¬ o.pts reg S p := fun o ho => hall.2 _ (List.mem_map.2 ⟨o, ho, rfl⟩)
    have hown : Own es reg e p := ⟨hall.1, fun c hc hpar hr => hsel (.encl c) (by
      simp only [select, List.mem_append, List.mem_map]
      exact .inl ⟨c, (hson e he c).2 ⟨hc, hpar⟩, rfl⟩) hr⟩
    refine ⟨hown, fun m hm hS => ?_⟩
    have hd := (hassign m hm).1 (h2 m hm) e he p hS hown
    exact hsel (.sol m) (by
      simp only [select, List.mem_append, List.mem_map, List.mem_filter, decide_eq_true_eq]
      exact .inr ⟨m, ⟨hm, hd⟩, rfl⟩) hS
  have oneE : ∀ e ∈ es, envelope e = false → Own es reg e p → (∀ m ∈ ms, ¬ S m p) →
      (getVoid (some e) (select (ls ++ [[]]) (sonsOf e) e.id ms)).countP (holds · p) = 1 := by
    intro e he hv hown hS
    refine (hE e he hv p).1 ⟨hown.1, ?_⟩
    simp only [select, List.map_append, List.map_map, List.mem_append, List.mem_map, List.mem_filter]
    rintro o (⟨c, hc, rfl⟩ | ⟨m, hm, rfl⟩)
    · exact hown.2 c ((hson e he c).1 hc).1 ((hson e he c).1 hc).2
    · exact hS m hm.1
  have hflat : ∀ e, e ∈ ((ls ++ [[]]).flatten.filter fun e => !envelope e) ↔ e ∈ es ∧ envelope e = false := by
    intro e
    simp only [List.flatten_append, List.flatten_cons, List.flatten_nil, List.append_nil, List.mem_filter, hperm.mem_iff, Bool.not_eq_true']
  have hnd : ((ls ++ [[]]).flatten.filter fun e => !envelope e).Nodup := by
    apply List.Nodup.filter
    have : (ls ++ [[]]).flatten = ls.flatten := by simp
    rw [this]
    exact hperm.nodup_iff.2 (List.Nodup.of_map _ hh.2.2.1)
  have depthOf : ∀ e ∈ es, ∃ k, Depth es e k := hh.2.2.2
  rw [hcount]
  refine ⟨fun ⟨hS, henv⟩ => ?_, fun hno => ?_⟩
  · by_cases hin : ∃ e ∈ es, reg e p
    · obtain ⟨e, he, hr⟩ := hin
      obtain ⟨k, hk⟩ := depthOf e he
      obtain ⟨e0, he0, hown⟩ := own_exists (reg := reg) (p := p) ls.length hle _ e k rfl hk hr
      rw [zeroU fun h => h.1 e he hr, Nat.zero_add]
      refine countP_flatMap_one _ _ e0 _ hnd ((hflat e0).2 ⟨he0, henv e0 he0 hown⟩) (oneE e0 he0 (henv e0 he0 hown) hown hS) ?_
      intro e' he' hne
      obtain ⟨hm', hv'⟩ := (hflat e').1 he'
      refine zeroE e' hm' hv' fun h => hne ?_
      obtain ⟨k0, hk0⟩ := depthOf e0 he0
      obtain ⟨k', hk'⟩ := depthOf e' hm'
      exact own_unique hp hk' hk0 h.1 hown
    · have hne : ∀ e ∈ es, ¬ reg e p := fun e he hr => hin ⟨e, he, hr⟩
      rw [oneU hne hS, countP_flatMap_zero]
      intro e' he'
      obtain ⟨hm', hv'⟩ := (hflat e').1 he'
      exact zeroE e' hm' hv' fun h => hne e' hm' h.1.1
  · rw [zeroU ?_, countP_flatMap_zero]
    · intro e' he'
      obtain ⟨hm', hv'⟩ := (hflat e').1 he'
      refine zeroE e' hm' hv' fun h => hno ⟨h.2, fun e he hown => ?_⟩
      obtain ⟨k0, hk0⟩ := depthOf e he
      obtain ⟨k', hk'⟩ := depthOf e' hm'
      rw [own_unique hp hk0 hk' hown h.1]
      exact hv'
    · rintro ⟨h1, h2'⟩
      exact hno ⟨h2', fun e he hown => absurd hown.1 (h1 e he)⟩

/-- a case of `C63_void_with_enclosures_partial` with points 0 (outside), 1 (in enclosure 1 only), 2 and 3 (in 1 and 2); the solid holds 0 and 2; a void cell is a point -/
example : ∃ (es : List Encl) (reg : Encl → Fin 4 → Prop) (ns : List (List Encl)) (ss : List (Encl × List Encl)) (sonsOf : Encl → List Encl)
    (S : Sol → Fin 4 → Prop) (ms : List Sol) (getVoid : Option Encl → List Obj → List (Fin 4)),
    Hierarchy es ∧ Placed es reg ∧ setLevels 2 es = .ok (ns, ss) ∧ (∀ e ∈ es, (e, sonsOf e) ∈ ss) ∧ (∀ m ∈ ms, Answers es reg (S m) m.inter) ∧
    (∀ m ∈ ms, ∀ e ∈ es, m.inter e ≠ -2) ∧
    Fills (fun c p => c == p) (fun _ => True) ((select ns (ns.headD []) (-1) ms).map (Obj.pts reg S)) (getVoid none (select ns (ns.headD []) (-1) ms)) ∧
    (∀ e ∈ es, Fills (fun c p => c == p) (reg e) ((select ns (sonsOf e) e.id ms).map (Obj.pts reg S)) (getVoid (some e) (select ns (sonsOf e) e.id ms))) ∧
    (voidGeneration getVoid (fun _ => false) sonsOf ns ms [] 0).map (fun cs => cs.map fun c => c.cell) = some [1, 3] := by
  refine ⟨[⟨1, 0⟩, ⟨2, 1⟩], fun e p => e.id ≤ p, [[⟨1, 0⟩], [⟨2, 1⟩], []], [(⟨1, 0⟩, [⟨2, 1⟩]), (⟨2, 1⟩, [])],
    fun e => if e.id = 1 then [⟨2, 1⟩] else [], fun _ p => p = 0 ∨ p = 2, [⟨5, fun _ => 0⟩],
    fun o _ => match o with | none => [] | some e => if e.id = 1 then [1] else [3],
    ?_, ⟨?_, ?_⟩, rfl, ?_, ?_, by simp, ?_, ?_, ?_⟩
  · have d1 : Depth [⟨1, 0⟩, ⟨2, 1⟩] ⟨1, 0⟩ 1 := .top (by decide) rfl
    have d2 : Depth [⟨1, 0⟩, ⟨2, 1⟩] ⟨2, 1⟩ 2 := .sub (by decide) d1 rfl
    refine ⟨by simp, by simp, by decide, fun e he => ?_⟩
    simp only [List.mem_cons, List.not_mem_nil, or_false] at he
    rcases he with rfl | rfl
    · exact ⟨_, d1⟩
    · exact ⟨_, d2⟩
  · decide
  · decide
  · decide
  · intro m hm
    simp only [List.mem_cons, List.not_mem_nil, or_false] at hm
    subst hm
    exact ⟨by decide, by decide, by decide, by decide⟩
  · have : select [[⟨1, 0⟩], [⟨2, 1⟩], []] [⟨1, 0⟩] (-1) [⟨5, fun _ => 0⟩] = [.encl ⟨1, 0⟩, .sol ⟨5, fun _ => 0⟩] := rfl
    rw [show ([[⟨1, 0⟩], [⟨2, 1⟩], []] : List (List Encl)).headD [] = [⟨1, 0⟩] from rfl, this]
    intro p
    simp only [List.map_cons, List.map_nil, Obj.pts, List.mem_cons, List.not_mem_nil, or_false, forall_eq_or_imp, forall_eq]
    revert p; decide
  · intro e he
    simp only [List.mem_cons, List.not_mem_nil, or_false] at he
    rcases he with rfl | rfl
    · have : select [[⟨1, 0⟩], [⟨2, 1⟩], []] [⟨2, 1⟩] ((1 : Nat) : Int) [⟨5, fun _ => 0⟩] = [.encl ⟨2, 1⟩, .sol ⟨5, fun _ => 0⟩] := rfl
      simp only [if_true, this]
      intro p
      simp only [List.map_cons, List.map_nil, Obj.pts, List.mem_cons, List.not_mem_nil, or_false, forall_eq_or_imp, forall_eq]
      revert p; decide
    · have : select [[⟨1, 0⟩], [⟨2, 1⟩], []] [] ((2 : Nat) : Int) [⟨5, fun _ => 0⟩] = [.sol ⟨5, fun _ => 0⟩] := rfl
      simp only [show ((2 : Nat) = 1) = False by simp, if_false, this]
      intro p
      simp only [List.map_cons, List.map_nil, Obj.pts, List.mem_cons, List.not_mem_nil, or_false, forall_eq]
      revert p; decide
  · decide

end Geouned.Encl
