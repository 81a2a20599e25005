import Verif.Box.MyBox
/-!
# Property C43: oriented bounding boxes stay sound, whatever is shared
-/
namespace Geouned.Box

/-- what an oriented box says about a region: forward - the region lies in the box (no box: the region is empty);
reversed - the outside of the region lies in the box (no box: the region is everything) -/
def Bounds (box : Option BBox) (o : Ori) (R : Pt → Prop) : Prop :=
  match box, o with
  | some b, .fwd => ∀ p, R p → b.Mem p
  | none, .fwd => ∀ p, ¬ R p
  | some b, .rev => ∀ p, ¬ R p → b.Mem p
  | none, .rev => ∀ p, R p

/-- the oriented box of object `i` -/
def Heap.Sound (h : Heap) (i : Nat) (R : Pt → Prop) : Prop :=
  Bounds ((h.objs i).box.map h.boxes) (h.objs i).ori R

/-- the regions the objects stand for, after an operation: `add` is union, `mult` intersection -/
def regionStep (R : Nat → Pt → Prop) : Op → Nat → Pt → Prop
  | .add i j => fun k => if k = i then (fun p => R i p ∨ R j p) else R k
  | .mult i j => fun k => if k = i then (fun p => R i p ∧ R j p) else R k
  | .copy i j => fun k => if k = i then R j else R k

/-- addresses in use are below `next` -/
def Heap.Alloc (h : Heap) : Prop := ∀ i a, (h.objs i).box = some a → a < h.next

theorem hull_left {a b : BBox} {p : Pt} (h : a.Mem p) : (a.hull b).Mem p := by
  obtain ⟨⟨h1, h2⟩, ⟨h3, h4⟩, h5, h6⟩ := h
  exact ⟨⟨(min_le_left _ _).trans h1, h2.trans (le_max_left _ _)⟩, ⟨(min_le_left _ _).trans h3, h4.trans (le_max_left _ _)⟩,
    (min_le_left _ _).trans h5, h6.trans (le_max_left _ _)⟩

theorem hull_right {a b : BBox} {p : Pt} (h : b.Mem p) : (a.hull b).Mem p := by
  obtain ⟨⟨h1, h2⟩, ⟨h3, h4⟩, h5, h6⟩ := h
  exact ⟨⟨(min_le_right _ _).trans h1, h2.trans (le_max_right _ _)⟩, ⟨(min_le_right _ _).trans h3, h4.trans (le_max_right _ _)⟩,
    (min_le_right _ _).trans h5, h6.trans (le_max_right _ _)⟩

theorem inter_mem {a b : BBox} {p : Pt} : (a.inter b).Mem p ↔ a.Mem p ∧ b.Mem p := by
  simp only [BBox.inter, BBox.Mem, max_le_iff, le_min_iff]; tauto

theorem mem_proper {b : BBox} {p : Pt} (h : b.Mem p) : b.Proper :=
  ⟨h.1.1.trans h.1.2, h.2.1.1.trans h.2.1.2, h.2.2.1.trans h.2.2.2⟩

/-- a box may be replaced by a larger one -/
theorem Bounds.mono {b b' : BBox} {o : Ori} {R : Pt → Prop} (h : Bounds (some b) o R) (hb : ∀ p, b.Mem p → b'.Mem p) :
    Bounds (some b') o R := by
  cases o <;> exact fun p hp => hb p (h p hp)

/-- growing a shared box keeps every object sound -/
theorem sound_setBox {h : Heap} {R : Pt → Prop} {k a : Nat} {b : BBox} (hs : h.Sound k R)
    (hb : ∀ p, (h.boxes a).Mem p → b.Mem p) : (h.setBox a b).Sound k R := by
  unfold Heap.Sound at *
  simp only [Heap.setBox]
  cases hk : (h.objs k).box with
  | none => rw [hk] at hs; exact hs
  | some c =>
    rw [hk] at hs
    simp only [Option.map_some] at *
    by_cases hc : c = a
    · subst hc; rw [if_pos rfl]; exact hs.mono hb
    · rw [if_neg hc]; exact hs

theorem sound_setObj_ne {h : Heap} {R : Pt → Prop} {k i : Nat} {m : MyBox} (hne : k ≠ i) (hs : h.Sound k R) :
    (h.setObj i m).Sound k R := by
  unfold Heap.Sound at *
  simp only [Heap.setObj, if_neg hne]; exact hs

theorem sound_setObj_eq {h : Heap} {R : Pt → Prop} {i : Nat} {m : MyBox} (hs : Bounds (m.box.map h.boxes) m.ori R) :
    (h.setObj i m).Sound i R := by
  unfold Heap.Sound
  simp only [Heap.setObj, if_true]; exact hs

theorem sound_of {h : Heap} {R : Pt → Prop} {i : Nat} {b : Option Nat} {o : Ori} (hi : h.objs i = ⟨b, o⟩)
    (hs : h.Sound i R) : Bounds (b.map h.boxes) o R := by
  unfold Heap.Sound at hs; rw [hi] at hs; exact hs

theorem add_sound {h : Heap} (R : Nat → Pt → Prop) (i j : Nat) (hs : ∀ k, h.Sound k (R k)) :
    ∀ k, (h.add i j).Sound k (regionStep R (.add i j) k) := by
  obtain ⟨⟨bi, oi⟩, hi⟩ : ∃ m, h.objs i = m := ⟨_, rfl⟩
  obtain ⟨⟨bj, oj⟩, hj⟩ : ∃ m, h.objs j = m := ⟨_, rfl⟩
  have si := sound_of hi (hs i)
  have sj := sound_of hj (hs j)
  intro k
  simp only [regionStep]
  unfold Heap.add
  rw [hi, hj]
  by_cases hk : k = i
  · subst hk
    rw [if_pos rfl]
    cases bi with
    | none =>
      cases oi with
      | fwd =>
        apply sound_setObj_eq
        have : (fun p => R k p ∨ R j p) = R j := by
          funext p; simpa using fun h => absurd h (si p)
        rw [this]; exact sj
      | rev =>
        unfold Heap.Sound; simp only [hi]
        exact fun p => .inl (si p)
    | some a =>
      cases bj with
      | none =>
        cases oj with
        | rev => apply sound_setObj_eq; exact fun p => .inr (sj p)
        | fwd =>
          unfold Heap.Sound; simp only [hi]
          have : (fun p => R k p ∨ R j p) = R k := by
            funext p; simpa using fun h => absurd h (sj p)
          rw [this]; exact si
      | some b =>
        simp only
        have key : ∀ o, (oi ≠ oj → o = .rev) → (oi = oj → o = oi) →
            Bounds (some ((h.boxes a).hull (h.boxes b))) o (fun p => R k p ∨ R j p) := by
          intro o ho1 ho2
          cases oi <;> cases oj
          · rw [ho2 rfl]; rintro p (hp | hp)
            · exact hull_left (si p hp)
            · exact hull_right (sj p hp)
          · rw [ho1 (by decide)]; intro p hp; exact hull_right (sj p (fun h => hp (.inr h)))
          · rw [ho1 (by decide)]; intro p hp; exact hull_left (si p (fun h => hp (.inl h)))
          · rw [ho2 rfl]; intro p hp; exact hull_left (si p (fun h => hp (.inl h)))
        split
        · rename_i hne
          apply sound_setObj_eq
          simp only [Option.map_some, Heap.setBox, if_true]
          exact key .rev (fun _ => rfl) (fun h => absurd h hne)
        · rename_i hne
          unfold Heap.Sound
          simp only [Heap.setBox, hi, Option.map_some, if_true]
          exact key oi (fun h => absurd h hne) (fun _ => rfl)
  · rw [if_neg hk]
    cases bi with
    | none => cases oi with
      | fwd => exact sound_setObj_ne hk (hs k)
      | rev => exact hs k
    | some a =>
      cases bj with
      | none => cases oj with
        | rev => exact sound_setObj_ne hk (hs k)
        | fwd => exact hs k
      | some b =>
        simp only
        have := sound_setBox (b := (h.boxes a).hull (h.boxes b)) (hs k) (fun p hp => hull_left hp)
        split
        · exact sound_setObj_ne hk this
        · exact this

theorem sound_fresh {h : Heap} {R : Pt → Prop} {k : Nat} {b : BBox} (ha : h.Alloc) (hs : h.Sound k R) :
    ({ (h.setBox h.next b) with next := h.next + 1 } : Heap).Sound k R := by
  unfold Heap.Sound at *
  simp only [Heap.setBox]
  cases hk : (h.objs k).box with
  | none => rw [hk] at hs; exact hs
  | some c =>
    rw [hk] at hs
    have := ha k c hk
    simp only [Option.map_some, if_neg (Nat.ne_of_lt this)] at *
    exact hs

theorem mult_sound {h : Heap} (R : Nat → Pt → Prop) (i j : Nat) (ha : h.Alloc) (hs : ∀ k, h.Sound k (R k)) :
    ∀ k, (h.mult i j).Sound k (regionStep R (.mult i j) k) := by
  obtain ⟨⟨bi, oi⟩, hi⟩ : ∃ m, h.objs i = m := ⟨_, rfl⟩
  obtain ⟨⟨bj, oj⟩, hj⟩ : ∃ m, h.objs j = m := ⟨_, rfl⟩
  have si := sound_of hi (hs i)
  have sj := sound_of hj (hs j)
  intro k
  simp only [regionStep]
  unfold Heap.mult
  rw [hi, hj]
  by_cases hk : k = i
  · subst hk
    rw [if_pos rfl]
    cases bi with
    | none =>
      cases oi with
      | rev =>
        apply sound_setObj_eq
        have : (fun p => R k p ∧ R j p) = R j := by
          funext p; simpa using fun _ => si p
        rw [this]; exact sj
      | fwd =>
        unfold Heap.Sound; simp only [hi]
        exact fun p hp => si p hp.1
    | some a =>
      cases bj with
      | none =>
        cases oj with
        | fwd => apply sound_setObj_eq; exact fun p hp => sj p hp.2
        | rev =>
          unfold Heap.Sound; simp only [hi]
          have : (fun p => R k p ∧ R j p) = R k := by
            funext p; simpa using fun _ => sj p
          rw [this]; exact si
      | some b =>
        simp only
        split
        · rename_i hrev
          have key : ∀ o, (oi ≠ oj → o = .fwd) → (oi = oj → o = oi) →
              Bounds (some ((h.boxes a).hull (h.boxes b))) o (fun p => R k p ∧ R j p) := by
            intro o ho1 ho2
            cases oi <;> cases oj
            · simp at hrev
            · rw [ho1 (by decide)]; intro p hp; exact hull_left (si p hp.1)
            · rw [ho1 (by decide)]; intro p hp; exact hull_right (sj p hp.2)
            · rw [ho2 rfl]; intro p hp
              by_cases h1 : R k p
              · exact hull_right (sj p (fun h2 => hp ⟨h1, h2⟩))
              · exact hull_left (si p h1)
          split
          · rename_i hne
            apply sound_setObj_eq
            simp only [Option.map_some, Heap.setBox, if_true]
            exact key .fwd (fun _ => rfl) (fun h => absurd h hne)
          · rename_i hne
            unfold Heap.Sound
            simp only [Heap.setBox, hi, Option.map_some, if_true]
            exact key oi (fun h => absurd h hne) (fun _ => rfl)
        · rename_i hf
          push Not at hf
          have e1 : oi = .fwd := by cases oi <;> simp_all
          have e2 : oj = .fwd := by cases oj <;> simp_all
          subst e1 e2
          split
          · apply sound_setObj_eq
            simp only [Option.map_some, Heap.setBox, if_true]
            intro p hp
            exact inter_mem.2 ⟨si p hp.1, sj p hp.2⟩
          · rename_i hinv
            apply sound_setObj_eq
            intro p hp
            exact hinv (mem_proper (inter_mem.2 ⟨si p hp.1, sj p hp.2⟩))
  · rw [if_neg hk]
    cases bi with
    | none => cases oi with
      | rev => exact sound_setObj_ne hk (hs k)
      | fwd => exact hs k
    | some a =>
      cases bj with
      | none => cases oj with
        | fwd => exact sound_setObj_ne hk (hs k)
        | rev => exact hs k
      | some b =>
        simp only
        have := sound_setBox (b := (h.boxes a).hull (h.boxes b)) (hs k) (fun p hp => hull_left hp)
        split
        · split
          · exact sound_setObj_ne hk this
          · exact this
        · split
          · exact sound_setObj_ne hk (sound_fresh ha (hs k))
          · exact sound_setObj_ne hk (hs k)

theorem alloc_setObj {h : Heap} {i : Nat} {m : MyBox} (ha : h.Alloc) (hm : ∀ a, m.box = some a → a < h.next) :
    (h.setObj i m).Alloc := by
  intro k a hk
  simp only [Heap.setObj] at hk ⊢
  split at hk
  · exact hm a hk
  · exact ha k a hk

theorem alloc_setBox {h : Heap} {i : Nat} {b : BBox} (ha : h.Alloc) : (h.setBox i b).Alloc := fun k a hk => ha k a hk

theorem step_alloc {h : Heap} (op : Op) (ha : h.Alloc) : (h.step op).Alloc := by
  cases op with
  | copy i j => exact alloc_setObj ha (ha j)
  | add i j =>
    simp only [Heap.step]; unfold Heap.add; dsimp only
    split
    · split
      · exact alloc_setObj ha (ha j)
      · exact ha
    · rename_i a hsa
      split
      · split
        · exact alloc_setObj ha (by simp)
        · exact ha
      · split
        · exact alloc_setObj (alloc_setBox ha) (fun b hb => by simp at hb; subst hb; exact ha i a hsa)
        · exact alloc_setBox ha
  | mult i j =>
    simp only [Heap.step]; unfold Heap.mult; dsimp only
    split
    · split
      · exact alloc_setObj ha (ha j)
      · exact ha
    · rename_i a hsa
      split
      · split
        · exact alloc_setObj ha (by simp)
        · exact ha
      · split
        · split
          · exact alloc_setObj (alloc_setBox ha) (fun b hb => by simp at hb; subst hb; exact ha i a hsa)
          · exact alloc_setBox ha
        · split
          · apply alloc_setObj
            · intro k b hb
              exact Nat.lt_succ_of_lt (ha k b hb)
            · intro b hb; simp at hb; subst hb; exact Nat.lt_succ_self _
          · exact alloc_setObj ha (by simp)

/-- C43: after any sequence of `add`, `mult` and copies, with any sharing of `BoundBox` objects, every oriented box still
bounds the union / intersection of regions it stands for. -/
theorem C43_myBox_history (h : Heap) (R : Nat → Pt → Prop) (ha : h.Alloc) (hs : ∀ k, h.Sound k (R k)) (ops : List Op) :
    ∀ k, (ops.foldl Heap.step h).Sound k (ops.foldl regionStep R k) := by
  induction ops generalizing h R with
  | nil => exact hs
  | cons op ops ih =>
    refine ih (h.step op) (regionStep R op) (step_alloc op ha) ?_
    cases op with
    | add i j => exact add_sound R i j hs
    | mult i j => exact mult_sound R i j ha hs
    | copy i j =>
      intro k
      simp only [Heap.step, regionStep]
      by_cases hk : k = i
      · rw [if_pos hk, hk]; exact sound_setObj_eq (hs j)
      · rw [if_neg hk]; exact sound_setObj_ne hk (hs k)

/-- C43, one union. -/
theorem C43_add (h : Heap) (R : Nat → Pt → Prop) (hs : ∀ k, h.Sound k (R k)) (i j : Nat) :
    (h.add i j).Sound i (fun p => R i p ∨ R j p) := by
  have := add_sound R i j hs i
  simpa [regionStep] using this

/-- C43, one intersection. -/
theorem C43_mult (h : Heap) (R : Nat → Pt → Prop) (ha : h.Alloc) (hs : ∀ k, h.Sound k (R k)) (i j : Nat) :
    (h.mult i j).Sound i (fun p => R i p ∧ R j p) := by
  have := mult_sound R i j ha hs i
  simpa [regionStep] using this

/-- non-vacuity: a heap where two objects share one box, one forward and one reversed -/
example : ∃ (h : Heap) (R : Nat → Pt → Prop), h.Alloc ∧ (∀ k, h.Sound k (R k)) ∧ (h.objs 0).box = (h.objs 1).box ∧
    (h.objs 0).ori = .fwd ∧ (h.objs 1).ori = .rev ∧ R 0 ⟨1, 1, 1⟩ ∧ ¬ R 1 ⟨1, 1, 1⟩ := by
  let b : BBox := ⟨0, 2, 0, 2, 0, 2⟩
  refine ⟨⟨fun _ => b, 1, fun k => if k = 0 then ⟨some 0, .fwd⟩ else ⟨some 0, .rev⟩⟩,
    fun k => if k = 0 then b.Mem else fun p => ¬ b.Mem p, ?_, ?_, rfl, rfl, rfl, ?_, ?_⟩
  · intro i a h
    dsimp only at h
    split at h <;> · simp at h; subst h; exact Nat.one_pos
  · intro k
    unfold Heap.Sound
    dsimp only
    split
    · exact fun p hp => hp
    · exact fun p hp => not_not.1 hp
  · norm_num [b, BBox.Mem]
  · norm_num [b, BBox.Mem]


/-! ### the box of a whole definition -/

/-- the region of a definition, given the regions of its level-0 components -/
def Def.Region {α : Type} (R : α → Pt → Prop) : Def α → Pt → Prop
  | .leaf c => R c
  | .const b => fun _ => b = true
  | .node true l => fun p => ∀ d ∈ l.attach, Def.Region R d.1 p
  | .node false l => fun p => ∃ d ∈ l.attach, Def.Region R d.1 p
termination_by d => sizeOf d
decreasing_by all_goals (have := List.sizeOf_lt_of_mem d.2; simp; omega)

theorem PBox.add_sound {a b : PBox} {R S : Pt → Prop} (ha : Bounds a.1 a.2 R) (hb : Bounds b.1 b.2 S) :
    Bounds (a.add b).1 (a.add b).2 (fun p => R p ∨ S p) := by
  obtain ⟨a, oa⟩ := a
  obtain ⟨b, ob⟩ := b
  let h : Heap := ⟨fun i => if i = 0 then a.getD ⟨0,0,0,0,0,0⟩ else b.getD ⟨0,0,0,0,0,0⟩, 2,
    fun k => if k = 0 then ⟨a.map (fun _ => 0), oa⟩ else ⟨b.map (fun _ => 1), ob⟩⟩
  have := C43_add h (fun k => if k = 0 then R else S) (fun k => by
    unfold Heap.Sound
    simp only [h]
    split
    · cases a <;> exact ha
    · cases b <;> exact hb) 0 1
  simp only [if_true, if_neg one_ne_zero] at this
  unfold Heap.Sound Heap.add at this
  simp only [h, if_true, if_neg one_ne_zero] at this
  cases a <;> cases b <;> cases oa <;> cases ob <;>
    simp [Heap.setObj, Heap.setBox] at this <;> simp [PBox.add] <;> exact this

theorem PBox.mult_sound {a b : PBox} {R S : Pt → Prop} (ha : Bounds a.1 a.2 R) (hb : Bounds b.1 b.2 S) :
    Bounds (a.mult b).1 (a.mult b).2 (fun p => R p ∧ S p) := by
  obtain ⟨a, oa⟩ := a
  obtain ⟨b, ob⟩ := b
  let h : Heap := ⟨fun i => if i = 0 then a.getD ⟨0,0,0,0,0,0⟩ else b.getD ⟨0,0,0,0,0,0⟩, 2,
    fun k => if k = 0 then ⟨a.map (fun _ => 0), oa⟩ else ⟨b.map (fun _ => 1), ob⟩⟩
  have := C43_mult h (fun k => if k = 0 then R else S) (fun k c => by
    simp only [h]
    split
    · cases a <;> simp; omega
    · cases b <;> simp; omega) (fun k => by
    unfold Heap.Sound
    simp only [h]
    split
    · cases a <;> exact ha
    · cases b <;> exact hb) 0 1
  simp only [if_true, if_neg one_ne_zero] at this
  unfold Heap.Sound Heap.mult at this
  simp only [h, if_true, if_neg one_ne_zero] at this
  cases a <;> cases b <;> cases oa <;> cases ob <;>
    simp [Heap.setObj, Heap.setBox] at this <;> simp [PBox.mult] <;> try exact this
  split at this
  · rename_i hp; rw [if_pos hp]; simpa using this
  · rename_i hp; rw [if_neg hp]; simpa using this

theorem foldAnd_sound (l : List PBox) (Rs : List (Pt → Prop)) (hl : List.Forall₂ (fun b R => Bounds b.1 b.2 R) l Rs)
    (a : PBox) (R : Pt → Prop) (ha : Bounds a.1 a.2 R) :
    Bounds (foldAnd a l).1 (foldAnd a l).2 (fun p => R p ∧ ∀ S ∈ Rs, S p) := by
  induction hl generalizing a R with
  | nil => simpa [foldAnd] using ha
  | @cons b S l Rs hb _ ih =>
    have h1 := PBox.mult_sound ha hb
    unfold foldAnd
    dsimp only
    split
    · rename_i hc
      rw [hc] at h1 ⊢
      intro p hp
      exact h1 p ⟨hp.1, hp.2 S (by simp)⟩
    · have := ih _ _ h1
      simpa [and_assoc] using this

theorem foldOr_sound (l : List PBox) (Rs : List (Pt → Prop)) (hl : List.Forall₂ (fun b R => Bounds b.1 b.2 R) l Rs)
    (a : PBox) (R : Pt → Prop) (ha : Bounds a.1 a.2 R) :
    Bounds (foldOr a l).1 (foldOr a l).2 (fun p => R p ∨ ∃ S ∈ Rs, S p) := by
  induction hl generalizing a R with
  | nil => simpa [foldOr] using ha
  | @cons b S l Rs hb _ ih =>
    have h1 := PBox.add_sound ha hb
    unfold foldOr
    dsimp only
    split
    · rename_i hc
      rw [hc] at h1 ⊢
      intro p
      rcases h1 p with h | h
      · exact .inl h
      · exact .inr ⟨S, by simp, h⟩
    · have := ih _ _ h1
      simpa [or_assoc] using this

/-- C43: the box computed for a whole definition bounds the region of the definition, provided the boxes of the level-0
components bound theirs; a definition with an empty operator list makes the code raise. -/
theorem C43_build_box_depth {α : Type} (leafBox : α → PBox) (R : α → Pt → Prop)
    (hleaf : ∀ c, Bounds (leafBox c).1 (leafBox c).2 (R c)) (d : Def α) (b : PBox) (h : buildBox leafBox d = some b) :
    Bounds b.1 b.2 (d.Region R) := by
  match d with
  | .leaf c =>
    rw [buildBox] at h; rw [Def.Region]; cases h; exact hleaf c
  | .const v =>
    rw [buildBox] at h; rw [Def.Region]
    cases v <;> simp at h <;> subst h
    · intro p; simp
    · intro p; simp
  | .node op l =>
    rw [buildBox] at h
    have hrec : ∀ bs, l.attach.mapM (fun d => buildBox leafBox d.1) = some bs →
        List.Forall₂ (fun b R' => Bounds b.1 b.2 R') bs (l.attach.map (fun d => d.1.Region R)) := by
      have : ∀ (m : List {x // x ∈ l}) bs, m.mapM (fun d => buildBox leafBox d.1) = some bs →
          List.Forall₂ (fun b R' => Bounds b.1 b.2 R') bs (m.map (fun d => d.1.Region R)) := by
        intro m
        induction m with
        | nil => intro bs hb; simp at hb; subst hb; simp
        | cons x m ih =>
          intro bs hb
          rw [List.mapM_cons] at hb
          cases hx : buildBox leafBox x.1 with
          | none => rw [hx] at hb; simp at hb
          | some b1 =>
            rw [hx] at hb
            cases hm : m.mapM (fun d => buildBox leafBox d.1) with
            | none => rw [hm] at hb; simp at hb
            | some bs1 =>
              rw [hm] at hb
              simp at hb
              subst hb
              have hsz : sizeOf x.1 < sizeOf l := List.sizeOf_lt_of_mem x.2
              exact List.Forall₂.cons (C43_build_box_depth leafBox R hleaf x.1 b1 hx) (ih bs1 hm)
      exact this l.attach
    cases hm : l.attach.mapM (fun d => buildBox leafBox d.1) with
    | none => rw [hm] at h; simp at h
    | some bs =>
      rw [hm] at h
      have hf := hrec bs hm
      cases bs with
      | nil => simp at h
      | cons b0 bs =>
        simp only [Option.bind_some] at h
        cases hl : l.attach with
        | nil => rw [hl] at hf; simp at hf
        | cons x xs =>
          rw [hl] at hf
          simp only [List.map_cons, List.forall₂_cons] at hf
          cases op with
          | true =>
            simp at h; subst h
            have := foldAnd_sound bs _ hf.2 b0 _ hf.1
            rw [Def.Region, hl]
            simp only [List.forall_mem_cons, List.forall_mem_map] at this ⊢
            exact this
          | false =>
            simp at h; subst h
            have := foldOr_sound bs _ hf.2 b0 _ hf.1
            rw [Def.Region, hl]
            simpa using this
termination_by sizeOf d
decreasing_by simp; omega

/-- non-vacuity: the intersection of a boxed region with the outside of another boxed region -/
example : ∃ b, buildBox (α := Bool) (fun c => if c then (some ⟨0, 2, 0, 2, 0, 2⟩, .fwd) else (some ⟨1, 3, 1, 3, 1, 3⟩, .rev))
    (.node true [.leaf true, .node false [.leaf false, .const false]]) = some b := by
  simp [buildBox]

end Geouned.Box
