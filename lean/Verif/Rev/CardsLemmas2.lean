import Verif.Rev.CardsLemmas
/-!
# C68: lemmas on the stages
-/
namespace Geouned.Rev
open Geouned.Text

section
variable {P : Type} {A : Nat → Prop}

/-! ## renaming -/

/-- the same surface under another number -/
def mapNum (f : Nat → Nat) : Tok → Tok
  | .num n => .num (if n < 0 then -(f n.natAbs : Int) else f n.natAbs)
  | t => t

theorem rename_emb {new : Nat → R Nat} {f : Nat → Nat} : ∀ {us : List Tok}, (∀ n, Tok.num n ∈ us → new n.natAbs = .ok (f n.natAbs)) →
    renameLoop new false (us.map emb) = .ok ((us.map (mapNum f)).map emb)
  | [], _ => rfl
  | t :: us, h => by
    have ih := rename_emb (us := us) fun n hn => h n (List.mem_cons_of_mem _ hn)
    cases t with
    | num n =>
      have := h n (by simp)
      simp [renameLoop, emb, mapNum, this, ih, bind, Except.bind]
    | _ => simp [renameLoop, emb, mapNum, ih, bind, Except.bind]

theorem rename_total {new : Nat → R Nat} : ∀ {ts : List HTok} {h : Bool}, (∀ m ∈ surfNums h ts, ∃ k, new m = .ok k) → ∃ r, renameLoop new h ts = .ok r
  | [], _, _ => ⟨[], rfl⟩
  | t :: ts, h, hn => by
    cases t with
    | num n =>
      by_cases hc : h = true ∧ 0 ≤ n
      · obtain ⟨r, e⟩ := rename_total (ts := ts) (h := false) (fun m hm => hn m (by simp [surfNums, hc, hm]))
        exact ⟨.num n :: r, by simp [renameLoop, hc, e, bind, Except.bind]⟩
      · obtain ⟨r, e⟩ := rename_total (ts := ts) (h := false) (fun m hm => hn m (by simp only [surfNums, if_neg hc]; exact List.mem_cons_of_mem _ hm))
        obtain ⟨k, hk⟩ := hn n.natAbs (by simp only [surfNums, if_neg hc]; exact List.mem_cons_self ..)
        exact ⟨_, by simp only [renameLoop, if_neg hc, hk, e, bind, Except.bind]; rfl⟩
    | _ =>
      obtain ⟨r, e⟩ := rename_total (ts := ts) (fun m hm => hn m hm)
      exact ⟨_, by unfold renameLoop; rw [e]; rfl⟩

theorem lit_map {σ σ' : Side} {f : Nat → Nat} {n : Int} (h0 : f n.natAbs ≠ 0) (h : σ' (f n.natAbs) = σ n.natAbs) :
    lit σ' (if n < 0 then -(f n.natAbs : Int) else f n.natAbs) = lit σ n := by
  unfold lit
  by_cases hn : n < 0
  · have h1 : -(f n.natAbs : Int) < 0 := by omega
    simp only [hn, if_true, h1, Int.natAbs_neg, Int.natAbs_natCast, h]
  · have h1 : ¬ ((f n.natAbs : Int) < 0) := by omega
    simp only [hn, if_false, h1, Int.natAbs_natCast, h]

theorem reads_map {σ σ' : Side} {f : Nat → Nat} {r : Rank} {ts : List Tok} {b : Bool} (h : Reads σ r ts b)
    (hf : ∀ n, Tok.num n ∈ ts → f n.natAbs ≠ 0 ∧ σ' (f n.natAbs) = σ n.natAbs) : Reads σ' r (ts.map (mapNum f)) b := by
  induction h with
  | num n h =>
    obtain ⟨h1, h2⟩ := hf n (by simp)
    rw [← lit_map h1 h2]
    refine .num _ ?_
    split <;> omega
  | paren _ ih => simpa [mapNum] using Reads.paren (ih fun n hn => hf n (by simp [hn]))
  | one _ ih => exact .one (ih hf)
  | and _ _ ih1 ih2 =>
    rw [List.map_append]
    exact .and (ih1 fun n hn => hf n (by simp [hn])) (ih2 fun n hn => hf n (by simp [hn]))
  | single _ ih => exact .single (ih hf)
  | or _ _ ih1 ih2 =>
    rw [List.map_append]
    exact .or (ih1 fun n hn => hf n (by simp [hn])) (ih2 fun n hn => hf n (by simp [hn]))

theorem solid_map (f : Nat → Nat) (us : List Tok) : solid (us.map (mapNum f)) = (solid us).map (mapNum f) := by
  induction us with
  | nil => rfl
  | cons t us ih => cases t <;> simp_all [solid, mapNum]

theorem means_map {σ σ' : Side} {f : Nat → Nat} {us : List Tok} {b : Bool} (h : Means σ us b)
    (hf : ∀ n, Tok.num n ∈ us → f n.natAbs ≠ 0 ∧ σ' (f n.natAbs) = σ n.natAbs) : Means σ' (us.map (mapNum f)) b := by
  unfold Means
  rw [solid_map]
  exact reads_map h fun n hn => hf n (List.mem_filter.1 hn).1

theorem mem_mapNum {f : Nat → Nat} {us : List Tok} {m : Int} (h : Tok.num m ∈ us.map (mapNum f)) : ∃ n, Tok.num n ∈ us ∧ m.natAbs = f n.natAbs := by
  obtain ⟨t, h1, h2⟩ := List.mem_map.1 h
  cases t with
  | num n =>
    simp only [mapNum, Tok.num.injEq] at h2
    refine ⟨n, h1, ?_⟩
    rw [← h2]
    split <;> omega
  | _ => cases h2

theorem num_emb {us : List Tok} {n : Int} : HTok.num n ∈ us.map emb ↔ Tok.num n ∈ us := mem_emb (t := .num n)

theorem surfNums_uses {ts : List HTok} : ∀ {h : Bool} {n : Nat}, n ∈ surfNums h ts →
    ∃ a m b, hsolid ts = a ++ .num m :: b ∧ m.natAbs = n ∧ ¬ (0 ≤ m ∧ ((∃ a', a = a' ++ [.hash]) ∨ (a = [] ∧ h = true))) := by
  induction ts with
  | nil => intro h n hn; cases hn
  | cons t ts ih =>
    intro h n hn
    have shift : ∀ h', (t = .hash → h' = true) → (t = .blank → h' = h) → n ∈ surfNums h' ts →
        ∃ a m b, hsolid (t :: ts) = a ++ .num m :: b ∧ m.natAbs = n ∧ ¬ (0 ≤ m ∧ ((∃ a', a = a' ++ [.hash]) ∨ (a = [] ∧ h = true))) := by
      intro h' e1 e2 hn
      obtain ⟨a, m, b, g1, g2, g3⟩ := ih hn
      refine ⟨(if t = .blank then [] else [t]) ++ a, m, b, by rw [hsolid_cons, g1, List.append_assoc], g2, ?_⟩
      rintro ⟨k1, k2⟩
      apply g3
      refine ⟨k1, ?_⟩
      by_cases hb : t = .blank
      · subst hb
        rw [e2 rfl]
        simpa using k2
      · simp only [if_neg hb, List.cons_append, List.nil_append, List.cons_ne_nil, false_and, or_false] at k2
        obtain ⟨a', k2⟩ := k2
        cases a' with
        | nil =>
          simp only [List.nil_append, List.cons.injEq] at k2
          exact .inr ⟨k2.2, e1 k2.1⟩
        | cons x a' =>
          simp only [List.cons_append, List.cons.injEq] at k2
          exact .inl ⟨a', k2.2⟩
    cases t with
    | num m =>
      by_cases hc : h = true ∧ 0 ≤ m
      · simp only [surfNums, if_pos hc] at hn
        exact shift false (by simp) (by simp) hn
      · simp only [surfNums, if_neg hc, List.mem_cons] at hn
        rcases hn with rfl | hn
        · refine ⟨[], m, hsolid ts, by rw [hsolid_cons]; simp, rfl, ?_⟩
          rintro ⟨k1, ⟨a', k2⟩ | ⟨-, k2⟩⟩
          · simp at k2
          · exact hc ⟨k2, k1⟩
        · exact shift false (by simp) (by simp) hn
    | hash => exact shift true (by simp) (by simp) (by simpa [surfNums] using hn)
    | blank => exact shift h (by simp) (by simp) (by simpa [surfNums] using hn)
    | lp => exact shift false (by simp) (by simp) (by simpa [surfNums] using hn)
    | rp => exact shift false (by simp) (by simp) (by simpa [surfNums] using hn)
    | colon => exact shift false (by simp) (by simp) (by simpa [surfNums] using hn)
    | amp => exact shift false (by simp) (by simp) (by simpa [surfNums] using hn)

theorem surfNums_usesSurf {ts : List HTok} {n : Nat} (h : n ∈ surfNums false ts) : usesSurf ts n := by
  obtain ⟨a, m, b, h1, h2, h3⟩ := surfNums_uses h
  refine ⟨a, m, b, h1, h2, ?_⟩
  rintro ⟨k1, k2⟩
  exact h3 ⟨k1, .inl k2⟩

/-! ## entries of `LIKE` cards -/

/-- a card with all its entries -/
def withE (c : DCard P) (r : Entries P) : DCard P := ⟨c.name, c.like, r.mat, r.u, r.fill, r.tr, r.trcl, r.geom⟩

variable {cards : List (DCard P)}

theorem resolves_unique (hn : (cards.map (·.name)).Nodup) {c : DCard P} {r r' : Entries P} (h : Resolves cards c r) : Resolves cards c r' → r = r' := by
  induction h generalizing r' with
  | own h =>
    intro h'
    cases h' with
    | own => rfl
    | like h2 => rw [h] at h2; cases h2
  | @like c d r h1 h2 h3 ih =>
    intro h'
    cases h' with
    | own h2 => rw [h1] at h2; cases h2
    | @like _ d' r'' g1 g2 g3 =>
      have e1 : d.name = d'.name := Option.some.inj (h1.symm.trans g1)
      have e : d = d' := by
        have a := cellAt_of_mem hn h2
        have b := cellAt_of_mem hn g2
        rw [e1, b] at a
        exact (Option.some.inj a).symm
      subst e
      rw [ih g3]

theorem orElse0_eq {a b : Option Nat} (h : a ≠ some 0) : orElse0 a b = (a <|> b) := by
  cases a with
  | none => rfl
  | some n =>
    cases n with
    | zero => exact absurd rfl h
    | succ n => rfl

theorem inherit_eq {c d : DCard P} {r : Entries P} (h : c.mat ≠ some 0 ∧ c.u ≠ some 0 ∧ c.fill ≠ some 0) :
    inherit c (withE d r) = withE c ⟨c.mat <|> r.mat, c.u <|> r.u, c.fill <|> r.fill, c.tr <|> r.tr, c.trcl <|> r.trcl, r.geom⟩ := by
  simp [inherit, withE, orElse0_eq h.1, orElse0_eq h.2.1, orElse0_eq h.2.2]

theorem explicit_spec {keep : Nat → Bool} (hn : (cards.map (·.name)).Nodup) (hp : PlainFile cards keep) :
    ∀ (ns done : List Nat) (cs : List (DCard P)), cards.map (·.name) = done ++ ns → cs.map (·.name) = cards.map (·.name) →
      (∀ c ∈ cards, (c.name ∈ ns → cellAt cs c.name = some c) ∧ (c.name ∈ done → ∃ r, Resolves cards c r ∧ cellAt cs c.name = some (withE c r))) →
      ∃ cs', explicitLoop ns cs = .ok cs' ∧ cs'.map (·.name) = cards.map (·.name) ∧
        ∀ c ∈ cards, ∃ r, Resolves cards c r ∧ cellAt cs' c.name = some (withE c r)
  | [], done, cs, h1, h2, h3 => by
    refine ⟨cs, rfl, h2, fun c hc => (h3 c hc).2 ?_⟩
    rw [List.append_nil] at h1
    rw [← h1]
    exact List.mem_map.2 ⟨c, hc, rfl⟩
  | n :: ns, done, cs, h1, h2, h3 => by
    have hnm : n ∈ cards.map (·.name) := by rw [h1]; simp
    obtain ⟨c, hc, rfl⟩ := List.mem_map.1 hnm
    have hat := (h3 c hc).1 (by simp)
    have hnd := hn
    rw [h1] at hnd
    have next : ∀ r cs', Resolves cards c r → cs'.map (·.name) = cards.map (·.name) → cellAt cs' c.name = some (withE c r) →
        (∀ m, m ≠ c.name → cellAt cs' m = cellAt cs m) → explicitLoop (c.name :: ns) cs = explicitLoop ns cs' →
        ∃ cs', explicitLoop (c.name :: ns) cs = .ok cs' ∧ cs'.map (·.name) = cards.map (·.name) ∧
          ∀ c ∈ cards, ∃ r, Resolves cards c r ∧ cellAt cs' c.name = some (withE c r) := by
      intro r cs' g1 g2 g3 g4 g5
      rw [g5]
      refine explicit_spec hn hp ns (done ++ [c.name]) cs' (by simpa using h1) g2 ?_
      intro x hx
      constructor
      · intro hxn
        have hne : x.name ≠ c.name := by
          intro e
          rw [e] at hxn
          have := (List.nodup_append.1 hnd).2.1
          exact (List.nodup_cons.1 this).1 hxn
        rw [g4 _ hne]
        exact (h3 x hx).1 (List.mem_cons_of_mem _ hxn)
      · intro hxd
        by_cases hne : x.name = c.name
        · have : x = c := by
            have a := cellAt_of_mem hn hx
            have b := cellAt_of_mem hn hc
            rw [hne, b] at a
            exact (Option.some.inj a).symm
          subst this
          exact ⟨r, g1, g3⟩
        · rw [g4 _ hne]
          refine (h3 x hx).2 ?_
          simpa [hne] using hxd
    cases hl : c.like with
    | none =>
      refine next ⟨c.mat, c.u, c.fill, c.tr, c.trcl, c.geom⟩ cs (.own hl) h2 hat (fun _ _ => rfl) ?_
      simp only [explicitLoop, hat, hl]
    | some b =>
      obtain ⟨pre, post, e⟩ := List.append_of_mem hc
      obtain ⟨d, hd, rfl, hor⟩ := hp.order pre c post e b hl
      have hdr : ∃ r, Resolves cards d r ∧ cellAt cs d.name = some (withE d r) := by
        rcases hor with hor | hor
        · refine (h3 d hd).2 ?_
          have e2 : cards.map (·.name) = pre.map (·.name) ++ c.name :: post.map (·.name) := by rw [e]; simp
          have e3 : done = pre.map (·.name) := by
            rw [h1] at e2
            have hx : c.name ∉ done := fun hx => by
              have := (List.nodup_append.1 hnd).2.2 _ hx _ (List.mem_cons_self ..)
              exact this rfl
            have hy : c.name ∉ pre.map (·.name) := fun hy => by
              have hnd2 := hnd
              rw [e2] at hnd2
              exact (List.nodup_append.1 hnd2).2.2 _ hy _ (List.mem_cons_self ..) rfl
            rcases List.append_eq_append_iff.1 e2 with ⟨w, e3, e4⟩ | ⟨w, e3, e4⟩
            · cases w with
              | nil => simpa using e3.symm
              | cons z w =>
                simp only [List.cons_append, List.cons.injEq] at e4
                rw [e3, ← e4.1] at hy
                simp at hy
            · cases w with
              | nil => simpa using e3
              | cons z w =>
                simp only [List.cons_append, List.cons.injEq] at e4
                rw [e3, ← e4.1] at hx
                simp at hx
          rw [e3]
          exact List.mem_map.2 ⟨d, hor, rfl⟩
        · by_cases hdn : d.name ∈ done
          · exact (h3 d hd).2 hdn
          · refine ⟨⟨d.mat, d.u, d.fill, d.tr, d.trcl, d.geom⟩, .own hor, (h3 d hd).1 ?_⟩
            have : d.name ∈ cards.map (·.name) := List.mem_map.2 ⟨d, hd, rfl⟩
            rw [h1] at this
            exact (List.mem_append.1 this).resolve_left hdn
      obtain ⟨r, hr, hda⟩ := hdr
      have hg := hp.given c hc (by rw [hl]; simp)
      refine next _ (setCell cs (inherit c (withE d r))) (.like hl hd hr) ((setCell_names _ _).trans h2) ?_ ?_ ?_
      · rw [cellAt_set, inherit_eq hg]
        simp only [withE, if_true, hat, Option.map_some]
      · intro m hm
        rw [cellAt_set, if_neg (show ¬ m = (inherit c (withE d r)).name from hm)]
      · simp only [explicitLoop, hat, hl, hda]

/-! ## `remove_hash` on the cells of a universe -/

theorem remove_nums {deck : Nat → Option Card} {Q : Nat → Prop}
    (hQ : ∀ m, Q m → ∀ d, deck m = some d → d.plain = true ∧ (∀ n ∈ surfNums false d.geom, A n) ∧ ∀ k, mentions d.geom k → Q k) :
    ∀ (f : Nat) (m : Nat) (d : Card) (us : List HTok), Q m → deck m = some d → remove deck f d = .ok us → NumsIn A us
  | 0, m, d, us, _, _, h => by simp [remove] at h
  | f + 1, m, d, us, hm, hd, h => by
    obtain ⟨h1, h2, h3⟩ := hQ m hm d hd
    have run : ∃ ct, removeText ct d.geom = .ok us ∧ ∀ n e, ct n = .ok e → ∃ d', deck n = some d' ∧ remove deck f d' = .ok e := by
      unfold remove at h
      rw [h1] at h
      by_cases hh : HTok.hash ∈ d.geom
      · simp only [Bool.not_true, Bool.false_or, hh, not_true_eq_false, decide_false, Bool.false_eq_true, if_false] at h
        refine ⟨_, h, ?_⟩
        intro n e he
        cases hdn : deck n with
        | none => simp [hdn] at he
        | some d' => exact ⟨d', rfl, by simpa [hdn] using he⟩
      · simp only [Bool.not_true, Bool.false_or, hh, not_false_eq_true, decide_true, if_true, Except.ok.injEq] at h
        subst h
        exact ⟨fun _ => .error .keyError, removeText_noHash _ _ hh, fun n e he => by cases he⟩
    obtain ⟨ct, run, hct⟩ := run
    refine removeText_nums _ _ _ (Nat.le_refl _) run ?_ h2
    intro n hn e he
    have hq := h3 n (hashNums_mentions hn)
    obtain ⟨d', hdn, he⟩ := hct n e he
    exact remove_nums hQ f n d' e hq hdn he

/-- a text without `#`, for cell `n` -/
def Clean (A : Nat → Prop) (σ : P → Side) (cell : P → Nat → Bool) (g : List HTok) (n : Nat) : Prop :=
  ∃ us, g = us.map emb ∧ Spaced g ∧ NumsIn A g ∧ ∀ p, Means (σ p) us (cell p n)

theorem noMentions_emb (us : List Tok) (m : Nat) : ¬ mentions (us.map emb) m := by
  rintro ⟨a, b, h⟩
  have : HTok.hash ∈ hsolid (us.map emb) := by rw [h]; simp
  obtain ⟨t, -, ht⟩ := List.mem_map.1 (List.mem_filter.1 this).1
  exact emb_ne_hash t ht

theorem surfNums_sub {ts : List HTok} : ∀ {h : Bool} {n : Nat}, n ∈ surfNums h ts → ∃ m, HTok.num m ∈ ts ∧ m.natAbs = n := by
  intro h n hn
  obtain ⟨a, m, b, h1, h2, -⟩ := surfNums_uses hn
  refine ⟨m, ?_, h2⟩
  have : HTok.num m ∈ hsolid ts := by rw [h1]; simp
  exact (List.mem_filter.1 this).1

/-- what is known of the cells of a universe while `#` is removed -/
structure UInv (A : Nat → Prop) (σ : P → Side) (cell : P → Nat → Bool) (marked : Nat → Bool) (univ : List (DCard P)) (done : List Nat) (cs : List (DCard P)) : Prop where
  names : cs.map (·.name) = univ.map (·.name)
  cells : ∀ x ∈ univ, ∃ g, cellAt cs x.name = some { x with geom := g } ∧ (marked x.name = true → g = x.geom) ∧
    (marked x.name = false → g = x.geom ∨ Clean A σ cell g x.name) ∧ (marked x.name = false → x.name ∈ done → Clean A σ cell g x.name)

structure UGood (A : Nat → Prop) (σ : P → Side) (cell : P → Nat → Bool) (marked : Nat → Bool) (ρ : Nat → Nat) (univ : List (DCard P)) : Prop where
  nodup : (univ.map (·.name)).Nodup
  spaced : ∀ x ∈ univ, marked x.name = false → Spaced x.geom
  means : ∀ x ∈ univ, marked x.name = false → ∀ p, HMeans (σ p) (cell p) x.geom (cell p x.name)
  known : ∀ x ∈ univ, marked x.name = false → ∀ n ∈ surfNums false x.geom, A n
  hash : ∀ x ∈ univ, marked x.name = false → ∀ m, mentions x.geom m → ρ m < ρ x.name ∧ m ∈ univ.map (·.name) ∧ marked m = false

variable {σ : P → Side} {cell : P → Nat → Bool} {marked : Nat → Bool} {ρ : Nat → Nat} {univ : List (DCard P)}

theorem unhash_step [Inhabited P] (hg : UGood A σ cell marked ρ univ) {done : List Nat} {cs : List (DCard P)} (hi : UInv A σ cell marked univ done cs)
    (f : Nat) (hf : ∀ n, ρ n < f) (x : DCard P) (hx : x ∈ univ) :
    ∃ g, removeHash (hashCards marked cs) f x.name = .ok g ∧ (marked x.name = true → g = x.geom) ∧ (marked x.name = false → Clean A σ cell g x.name) := by
  obtain ⟨g0, h1, h2, h3, -⟩ := hi.cells x hx
  cases hm : marked x.name with
  | true =>
    refine ⟨x.geom, ?_, fun _ => rfl, by simp⟩
    unfold removeHash hashCards
    rw [h1, hm]
    obtain ⟨f', rfl⟩ : ∃ f', f = f' + 1 := ⟨f - 1, by have := hf x.name; omega⟩
    simp [remove, h2 hm]
  | false =>
    have hR : ∀ n, n ∈ univ.map (·.name) ∧ marked n = false → ∃ c, hashCards marked cs n = some c ∧ c.plain = true ∧ Spaced c.geom ∧
        (∀ p, HMeans (σ p) (cell p) c.geom (cell p n)) ∧ (∀ m ∈ surfNums false c.geom, A m) ∧
        ∀ m, mentions c.geom m → (m ∈ univ.map (·.name) ∧ marked m = false) ∧ ρ m < ρ n := by
      rintro n ⟨hn, hnm⟩
      obtain ⟨y, hy, rfl⟩ := List.mem_map.1 hn
      obtain ⟨g, k1, -, k3, -⟩ := hi.cells y hy
      refine ⟨⟨g, true⟩, by unfold hashCards; rw [k1, hnm]; rfl, rfl, ?_⟩
      rcases k3 hnm with rfl | ⟨us, rfl, k4, k5, k6⟩
      · refine ⟨hg.spaced y hy hnm, hg.means y hy hnm, hg.known y hy hnm, fun m hmm => ?_⟩
        obtain ⟨q1, q2, q3⟩ := hg.hash y hy hnm m hmm
        exact ⟨⟨q2, q3⟩, q1⟩
      · refine ⟨k4, fun p => .of_means (k6 p), ?_, fun m hmm => absurd hmm (noMentions_emb us m)⟩
        intro m hmm
        obtain ⟨m', q1, rfl⟩ := surfNums_sub hmm
        exact k5 m' q1
    have hxn : x.name ∈ univ.map (·.name) := List.mem_map.2 ⟨x, hx, rfl⟩
    have run : ∀ p, ∃ us, removeHash (hashCards marked cs) f x.name = .ok (us.map emb) ∧ Means (σ p) us (cell p x.name) ∧ Spaced (us.map emb) := by
      intro p
      refine C64_remove_hash_partial (σ p) _ (cell p) (fun n => n ∈ univ.map (·.name) ∧ marked n = false) ρ ?_ x.name ⟨hxn, hm⟩ f (hf _)
      intro n hn
      obtain ⟨c, q1, q2, q3, q4, -, q6⟩ := hR n hn
      exact ⟨c, q1, q2, q3, q4 p, q6⟩
    obtain ⟨us, e1, -, e3⟩ := run default
    refine ⟨us.map emb, e1, by simp, fun _ => ⟨us, rfl, e3, ?_, ?_⟩⟩
    · obtain ⟨c, q1, -⟩ := hR x.name ⟨hxn, hm⟩
      unfold removeHash at e1
      rw [q1] at e1
      refine remove_nums (Q := fun n => n ∈ univ.map (·.name) ∧ marked n = false) ?_ f x.name c _ ⟨hxn, hm⟩ q1 e1
      intro m hm d hd
      obtain ⟨c', w1, w2, -, -, w5, w6⟩ := hR m hm
      rw [hd] at w1
      cases w1
      exact ⟨w2, w5, fun k hk => (w6 k hk).1⟩
    · intro p
      obtain ⟨ws, w1, w2, -⟩ := run p
      rw [e1] at w1
      cases map_emb_inj (Except.ok.inj w1)
      exact w2

theorem unhash_spec [Inhabited P] (hg : UGood A σ cell marked ρ univ) (f : Nat) (hf : ∀ n, ρ n < f) :
    ∀ (ns done : List Nat) (cs : List (DCard P)), UInv A σ cell marked univ done cs → (∀ n ∈ ns, n ∈ univ.map (·.name)) →
      ∃ cs', unhashLoop marked f ns cs = .ok cs' ∧ UInv A σ cell marked univ (done ++ ns) cs'
  | [], done, cs, hi, _ => ⟨cs, rfl, by simpa using hi⟩
  | n :: ns, done, cs, hi, hn => by
    obtain ⟨x, hx, rfl⟩ := List.mem_map.1 (hn n (by simp))
    obtain ⟨g0, h1, h2, h3, h4⟩ := hi.cells x hx
    obtain ⟨g, e1, e2, e3⟩ := unhash_step hg hi f hf x hx
    have hinv : UInv A σ cell marked univ (done ++ [x.name]) (setCell cs { x with geom := g }) := by
      refine ⟨(setCell_names _ _).trans hi.names, ?_⟩
      intro y hy
      rw [cellAt_set]
      by_cases hyx : y.name = x.name
      · have : y = x := by
          have a := cellAt_of_mem hg.nodup hy
          have b := cellAt_of_mem hg.nodup hx
          rw [hyx, b] at a
          exact (Option.some.inj a).symm
        subst this
        refine ⟨g, by simp [h1], e2, fun hm => .inr (e3 hm), fun hm _ => e3 hm⟩
      · obtain ⟨g', k1, k2, k3, k4⟩ := hi.cells y hy
        refine ⟨g', by simp [hyx, k1], k2, k3, fun hm hd => k4 hm ?_⟩
        simpa [hyx] using hd
    obtain ⟨cs', r1, r2⟩ := unhash_spec hg f hf ns (done ++ [x.name]) _ hinv fun m hm => hn m (List.mem_cons_of_mem _ hm)
    refine ⟨cs', ?_, by simpa using r2⟩
    unfold unhashLoop
    simp only [h1, e1, liftM, bind, Except.bind]
    exact r1

end
end Geouned.Rev
