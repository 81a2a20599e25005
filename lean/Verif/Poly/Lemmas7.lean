import Verif.Poly.Lemmas6
/-! Lemmas about `quadric_to_plane` -/
namespace Geouned.Poly
open Geouned Geouned.Text

variable {P : Type}

/-- the numbers `g` stand for the planes `c` -/
def Group.Rel (R : P → Nat → Prop) : Group P → Group Nat → Prop
  | .flat a, .flat b => List.Forall₂ R a b
  | .cone a, .cone b => List.Forall₂ R a b
  | .dbl a, .dbl b => List.Forall₂ R a b
  | .torus a b, .torus c d => List.Forall₂ R a c ∧ List.Forall₂ R b d
  | _, _ => False

theorem forall₂_nil {R : P → Nat → Prop} {a : List P} {b : List Nat} (h : List.Forall₂ R a b) : a = [] ↔ b = [] := by
  cases h <;> simp

theorem forall₂_right {R : P → Nat → Prop} {a : List P} {b : List Nat} (h : List.Forall₂ R a b) : ∀ k ∈ b, ∃ p ∈ a, R p k := by
  induction h with
  | nil => simp
  | cons h1 h2 ih =>
    intro k hk
    rcases List.mem_cons.1 hk with rfl | hk
    · exact ⟨_, by simp, h1⟩
    · obtain ⟨p, hp, h⟩ := ih k hk
      exact ⟨p, by simp [hp], h⟩

theorem forall₂_left {R : P → Nat → Prop} {a : List P} {b : List Nat} (h : List.Forall₂ R a b) : ∀ p ∈ a, ∃ k ∈ b, R p k := by
  induction h with
  | nil => simp
  | cons h1 h2 ih =>
    intro p hp
    rcases List.mem_cons.1 hp with rfl | hp
    · exact ⟨_, by simp, h1⟩
    · obtain ⟨k, hk, h⟩ := ih p hp
      exact ⟨k, by simp [hk], h⟩

theorem Group.Rel.mono {R S : P → Nat → Prop} (h : ∀ p k, R p k → S p k) : ∀ {c : Group P} {g : Group Nat}, c.Rel R g → c.Rel S g
  | .flat _, .flat _, hr => List.Forall₂.imp h hr
  | .cone _, .cone _, hr => List.Forall₂.imp h hr
  | .dbl _, .dbl _, hr => List.Forall₂.imp h hr
  | .torus _ _, .torus _ _, hr => ⟨List.Forall₂.imp h hr.1, List.Forall₂.imp h hr.2⟩
  | .flat _, .cone _, hr => hr.elim
  | .flat _, .dbl _, hr => hr.elim
  | .flat _, .torus _ _, hr => hr.elim
  | .cone _, .flat _, hr => hr.elim
  | .cone _, .dbl _, hr => hr.elim
  | .cone _, .torus _ _, hr => hr.elim
  | .dbl _, .flat _, hr => hr.elim
  | .dbl _, .cone _, hr => hr.elim
  | .dbl _, .torus _ _, hr => hr.elim
  | .torus _ _, .flat _, hr => hr.elim
  | .torus _ _, .cone _, hr => hr.elim
  | .torus _ _, .dbl _, hr => hr.elim

theorem Group.Rel.facts {R : P → Nat → Prop} {c : Group P} {g : Group Nat} (h : c.Rel R g) :
    g.twoSided = c.twoSided ∧ (g.Ok ↔ c.Ok) ∧ (g = .flat [] ↔ c = .flat []) ∧ (∀ k ∈ g.nums, ∃ p, R p k) := by
  cases c <;> cases g <;> first | exact h.elim | skip
  · exact ⟨rfl, Iff.rfl, by simp [forall₂_nil h], fun k hk => by obtain ⟨p, -, h⟩ := forall₂_right h k hk; exact ⟨p, h⟩⟩
  · exact ⟨rfl, by simp [Group.Ok, forall₂_nil h], by simp, fun k hk => by obtain ⟨p, -, h⟩ := forall₂_right h k hk; exact ⟨p, h⟩⟩
  · exact ⟨rfl, by simp [Group.Ok, forall₂_nil h], by simp, fun k hk => by obtain ⟨p, -, h⟩ := forall₂_right h k hk; exact ⟨p, h⟩⟩
  · refine ⟨rfl, by simp [Group.Ok, forall₂_nil h.1], by simp, fun k hk => ?_⟩
    rcases List.mem_append.1 hk with hk | hk
    · obtain ⟨p, -, h⟩ := forall₂_right h.1 k hk; exact ⟨p, h⟩
    · obtain ⟨p, -, h⟩ := forall₂_right h.2 k hk; exact ⟨p, h⟩

theorem Group.Rel.inside {R : P → Nat → Prop} {c : Group P} {g : Group Nat} (h : c.Rel R g) {on : P → Prop} {at' : Nat → Prop}
    (hr : ∀ p k, R p k → (on p ↔ at' k)) : c.Inside on ↔ g.Inside at' := by
  have all : ∀ {a : List P} {b : List Nat}, List.Forall₂ R a b → ((∀ p ∈ a, on p) ↔ ∀ k ∈ b, at' k) := by
    intro a b h
    constructor
    · intro h1 k hk
      obtain ⟨p, hp, h2⟩ := forall₂_right h k hk
      exact (hr p k h2).1 (h1 p hp)
    · intro h1 p hp
      obtain ⟨k, hk, h2⟩ := forall₂_left h p hp
      exact (hr p k h2).2 (h1 k hk)
  have none' : ∀ {a : List P} {b : List Nat}, List.Forall₂ R a b → ((∀ p ∈ a, ¬ on p) ↔ ∀ k ∈ b, ¬ at' k) := by
    intro a b h
    constructor
    · intro h1 k hk
      obtain ⟨p, hp, h2⟩ := forall₂_right h k hk
      exact fun h3 => h1 p hp ((hr p k h2).2 h3)
    · intro h1 p hp
      obtain ⟨k, hk, h2⟩ := forall₂_left h p hp
      exact fun h3 => h1 k hk ((hr p k h2).1 h3)
  have some' : ∀ {a : List P} {b : List Nat}, List.Forall₂ R a b → ((∃ p ∈ a, on p) ↔ ∃ k ∈ b, at' k) := by
    intro a b h
    constructor
    · rintro ⟨p, hp, h1⟩
      obtain ⟨k, hk, h2⟩ := forall₂_left h p hp
      exact ⟨k, hk, (hr p k h2).1 h1⟩
    · rintro ⟨k, hk, h1⟩
      obtain ⟨p, hp, h2⟩ := forall₂_right h k hk
      exact ⟨p, hp, (hr p k h2).2 h1⟩
  cases c <;> cases g <;> first | exact h.elim | skip
  · exact all h
  · exact all h
  · exact or_congr (all h) (none' h)
  · exact and_congr (all h.1) (imp_congr (not_congr (forall₂_nil h.2)) (some' h.2))

theorem alloc_spec : ∀ (ps : List P) (st : Nat × (Nat → Option P)),
    st.1 ≤ (alloc ps st).2.1 ∧ (∀ k, k < st.1 ∨ (alloc ps st).2.1 ≤ k → (alloc ps st).2.2 k = st.2 k) ∧
    List.Forall₂ (fun p k => (alloc ps st).2.2 k = some p ∧ st.1 ≤ k ∧ k < (alloc ps st).2.1) ps (alloc ps st).1
  | [], st => ⟨Nat.le_refl _, fun _ _ => rfl, .nil⟩
  | p :: ps, st => by
    obtain ⟨h1, h2, h3⟩ := alloc_spec ps (st.1 + 1, fun n => if n = st.1 then some p else st.2 n)
    simp only [alloc]
    dsimp only at h1 h2 h3
    refine ⟨by omega, fun k hk => ?_, .cons ⟨?_, Nat.le_refl _, by omega⟩ (h3.imp fun p k h => ⟨h.1, by omega, h.2.2⟩)⟩
    · rw [h2 k (by omega)]
      rw [if_neg (by omega)]
    · rw [h2 _ (by omega)]
      simp

theorem number_spec (c : Group P) (st : Nat × (Nat → Option P)) :
    st.1 ≤ (number c st).2.1 ∧ (∀ k, k < st.1 ∨ (number c st).2.1 ≤ k → (number c st).2.2 k = st.2 k) ∧
    c.Rel (fun p k => (number c st).2.2 k = some p ∧ st.1 ≤ k ∧ k < (number c st).2.1) (number c st).1 := by
  cases c with
  | flat ps => exact alloc_spec ps st
  | cone ps => exact alloc_spec ps st
  | dbl ps => exact alloc_spec ps st
  | torus ext inn =>
    obtain ⟨h1, h2, h3⟩ := alloc_spec ext st
    obtain ⟨g1, g2, g3⟩ := alloc_spec inn (alloc ext st).2
    refine ⟨Nat.le_trans h1 g1, fun k hk => ?_, ?_, ?_⟩
    · simp only [number] at hk ⊢
      rw [g2 k (by omega), h2 k (by omega)]
    · refine h3.imp fun p k h => ⟨?_, h.2.1, ?_⟩
      · simp only [number]; rw [g2 k (.inl h.2.2)]; exact h.1
      · simp only [number]; omega
    · refine g3.imp fun p k h => ⟨h.1, ?_, h.2.2⟩
      omega

theorem mem_setItem {V : Type} {k : Nat} {v : V} {x : Nat × V} : ∀ {d : List (Nat × V)}, x ∈ setItem k v d → x = (k, v) ∨ x ∈ d
  | [], h => by simpa [setItem] using h
  | (j, w) :: d, h => by
    simp only [setItem] at h
    split at h
    · rcases List.mem_cons.1 h with h | h
      · exact .inl h
      · exact .inr (by simp [h])
    · rcases List.mem_cons.1 h with h | h
      · exact .inr (by simp [h])
      · rcases mem_setItem h with h | h
        · exact .inl h
        · exact .inr (by simp [h])

theorem setItem_self {V : Type} {k : Nat} {v : V} : ∀ {d : List (Nat × V)}, (k, v) ∈ setItem k v d
  | [] => by simp [setItem]
  | (j, w) :: d => by
    simp only [setItem]
    split
    · simp
    · exact List.mem_cons_of_mem _ setItem_self

theorem setItem_key {V : Type} {k j : Nat} {v : V} : ∀ {d : List (Nat × V)}, (∃ x ∈ d, x.1 = j) → ∃ x ∈ setItem k v d, x.1 = j
  | [], h => by simp at h
  | (i, w) :: d, ⟨x, hx, hj⟩ => by
    simp only [setItem]
    split
    · next hi =>
      rcases List.mem_cons.1 hx with rfl | hx
      · exact ⟨(k, v), by simp, by rw [← hi]; exact hj⟩
      · exact ⟨x, by simp [hx], hj⟩
    · rcases List.mem_cons.1 hx with rfl | hx
      · exact ⟨_, List.mem_cons_self, hj⟩
      · obtain ⟨y, hy, h⟩ := setItem_key (v := v) (k := k) ⟨x, hx, hj⟩
        exact ⟨y, by simp [hy], h⟩

/-- what holds after the surfaces `L` -/
structure Inv (surfaces : Nat → Option (Surf P)) (o : Orient) (N : Nat) (L : Int → Prop) (t : Tab P) : Prop where
  next : N < t.next
  dom : ∀ k p, t.planes k = some p → (k ≤ N ∧ surfaces k = some (.plane p)) ∨ (N < k ∧ k < t.next)
  dict : ∀ x ∈ t.dict, ∃ n conv, L n ∧ n.natAbs = x.1 ∧ surfaces x.1 = some (.curved conv) ∧
    (conv (posOf o n)).Rel (fun p k => t.planes k = some p ∧ N < k ∧ k < t.next) x.2
  plane : ∀ n p, L n → surfaces n.natAbs = some (.plane p) → t.planes n.natAbs = some p
  curved : ∀ n conv, L n → surfaces n.natAbs = some (.curved conv) → ∃ x ∈ t.dict, x.1 = n.natAbs

theorem quadLoop_spec {surfaces : Nat → Option (Surf P)} {o : Orient} {N : Nat} : ∀ (ns : List Int) (L : Int → Prop) (t : Tab P),
    (∀ n ∈ ns, n.natAbs ≤ N ∧ (surfaces n.natAbs).isSome) → Inv surfaces o N L t →
    ∃ t', quadLoop surfaces o ns t = .ok t' ∧ Inv surfaces o N (fun n => L n ∨ n ∈ ns) t' := by
  intro ns
  induction ns with
  | nil => intro L t _ h; exact ⟨t, rfl, by simpa using h⟩
  | cons n ns ih =>
    intro L t hn h
    obtain ⟨hN, hs⟩ := hn n (by simp)
    have hns : ∀ m ∈ ns, m.natAbs ≤ N ∧ (surfaces m.natAbs).isSome := fun m hm => hn m (by simp [hm])
    have fin : ∀ t1, Inv surfaces o N (fun m => L m ∨ m = n) t1 → ∃ t', quadLoop surfaces o ns t1 = .ok t' ∧ Inv surfaces o N (fun m => L m ∨ m ∈ n :: ns) t' := by
      intro t1 h1
      obtain ⟨t', e, h2⟩ := ih _ t1 hns h1
      refine ⟨t', e, ?_⟩
      have : (fun m => (L m ∨ m = n) ∨ m ∈ ns) = fun m => L m ∨ m ∈ n :: ns := by
        funext m; simp [or_assoc]
      rw [← this]; exact h2
    cases hsn : surfaces n.natAbs with
    | none => rw [hsn] at hs; simp at hs
    | some s =>
      cases s with
      | plane p =>
        simp only [quadLoop, hsn]
        refine fin _ ⟨h.next, fun k q hk => ?_, fun x hx => ?_, fun m q hm hq => ?_, fun m conv hm hc => ?_⟩
        · dsimp only at hk ⊢
          split at hk
          · next hkn => subst hkn; cases hk; exact .inl ⟨hN, hsn⟩
          · exact h.dom k q hk
        · obtain ⟨m, conv, k1, k2, k3, k4⟩ := h.dict x hx
          refine ⟨m, conv, .inl k1, k2, k3, k4.mono fun p k hr => ⟨?_, hr.2⟩⟩
          dsimp only
          rw [if_neg (by omega)]; exact hr.1
        · dsimp only
          split
          · next hkn => rw [hkn] at hq; rw [hsn] at hq; cases hq; rfl
          · next hkn =>
            rcases hm with hm | rfl
            · exact h.plane m q hm hq
            · exact absurd rfl hkn
        · rcases hm with hm | rfl
          · exact h.curved m conv hm hc
          · rw [hsn] at hc; cases hc
      | curved conv =>
        simp only [quadLoop, hsn]
        obtain ⟨g1, g2, g3⟩ := number_spec (conv (posOf o n)) (t.next, t.planes)
        dsimp only at g1 g2 g3
        have hnext := h.next
        refine fin _ ⟨by dsimp only; omega, fun k q hk => ?_, fun x hx => ?_, fun m q hm hq => ?_, fun m conv' hm hc => ?_⟩
        · dsimp only at hk ⊢
          by_cases hk' : k < t.next ∨ (number (conv (posOf o n)) (t.next, t.planes)).2.1 ≤ k
          · rw [g2 k hk'] at hk
            rcases h.dom k q hk with h1 | h1
            · exact .inl h1
            · exact .inr ⟨h1.1, by omega⟩
          · exact .inr ⟨by omega, by omega⟩
        · dsimp only at hx ⊢
          rcases mem_setItem hx with rfl | hx
          · refine ⟨n, conv, .inr rfl, rfl, hsn, g3.mono fun p k hr => ⟨hr.1, by omega, hr.2.2⟩⟩
          · obtain ⟨m, conv', k1, k2, k3, k4⟩ := h.dict x hx
            refine ⟨m, conv', .inl k1, k2, k3, k4.mono fun p k hr => ⟨?_, hr.2.1, by omega⟩⟩
            rw [g2 k (.inl hr.2.2)]; exact hr.1
        · rcases hm with hm | rfl
          · have h1 := h.plane m q hm hq
            dsimp only
            have : m.natAbs < t.next := by
              rcases h.dom _ _ h1 with h2 | h2
              · omega
              · exact h2.2
            rw [g2 _ (.inl this)]; exact h1
          · rw [hsn] at hq; cases hq
        · dsimp only
          rcases hm with hm | rfl
          · exact setItem_key (h.curved m conv' hm hc)
          · exact ⟨_, setItem_self, rfl⟩

theorem mem_signed : ∀ (k : Nat) (s : Seq), s.depth ≤ k → ∀ n, n ∈ signed s ↔ Has n s := by
  have hL : ∀ (es : List Seq), (∀ e ∈ es, ∀ n, n ∈ signed e ↔ Has n e) → ∀ n, n ∈ signedL es ↔ HasL n es := by
    intro es
    induction es with
    | nil => intro _ n; simp [signedL, HasL]
    | cons e es ih =>
      intro h n
      simp only [signedL, HasL, List.mem_append]
      rw [h e (by simp) n, ih (fun x hx => h x (by simp [hx])) n]
  intro k
  induction k with
  | zero =>
    intro s hk n
    cases s with
    | int m => simp [signed, Has, eq_comm]
    | boo _ _ _ => simp [signed, Has]
    | lst o l es => rw [depth_lst] at hk; omega
  | succ k ih =>
    intro s hk n
    cases s with
    | int m => simp [signed, Has, eq_comm]
    | boo _ _ _ => simp [signed, Has]
    | lst o l es =>
      simp only [signed, Has]
      refine hL es (fun e he => ih e ?_) n
      have := depth_mem (o := o) (l := l) he
      omega

theorem le_maxAbs {n : Int} : ∀ {ns : List Int}, n ∈ ns → n.natAbs ≤ maxAbs ns
  | [], h => by simp at h
  | m :: ns, h => by
    simp only [maxAbs]
    rcases List.mem_cons.1 h with rfl | h
    · omega
    · have := le_maxAbs h; omega

end Geouned.Poly
