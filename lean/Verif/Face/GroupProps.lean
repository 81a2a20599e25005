import Verif.Face.GroupLemmas
/-!
# C87: the faces of tori, in groups

`sameTorusSurf same near l` for the list `l` of torus faces of a solid (all different); `same i j`: the faces lie on the same torus, `near i j`: they touch.
-/
namespace Geouned.Face

open Relation

/-- two faces of `l` on the same torus that touch -/
def Joined (same near : Nat → Nat → Bool) (l : List Nat) (a b : Nat) : Prop := a ∈ l ∧ b ∈ l ∧ same a b = true ∧ near a b = true

theorem pairwise_flatMap_of {α β : Type} {R : α → α → Prop} {S : β → β → Prop} {f : α → List β} {l : List α} (h : l.Pairwise R)
    (h1 : ∀ a ∈ l, (f a).Pairwise S) (h2 : ∀ a ∈ l, ∀ b ∈ l, R a b → ∀ x ∈ f a, ∀ y ∈ f b, S x y) : (l.flatMap f).Pairwise S := by
  induction l with
  | nil => simp
  | cons a l ih =>
    rw [List.flatMap_cons, List.pairwise_append]
    obtain ⟨p1, p2⟩ := List.pairwise_cons.mp h
    refine ⟨h1 a List.mem_cons_self, ih p2 (fun b hb => h1 b (List.mem_cons_of_mem _ hb))
      (fun b hb c hc => h2 b (List.mem_cons_of_mem _ hb) c (List.mem_cons_of_mem _ hc)), fun x hx y hy => ?_⟩
    obtain ⟨b, hb, hyb⟩ := List.mem_flatMap.mp hy
    exact h2 a List.mem_cons_self b (List.mem_cons_of_mem _ hb) (p1 b hb) x hx y hyb

theorem sameTorusSurf_groups {same near : Nat → Nat → Bool} {l : List Nat} (hl : l.Nodup) : Groups l (sameTorusSurf same near l) := by
  obtain ⟨g, _, _⟩ := sameTorusLoop_groups (same := same) (Nat.le_refl l.length) hl
  unfold sameTorusSurf separateSurfaces
  generalize sameTorusLoop same l.length l = ss at g
  have hs : ∀ s ∈ ss, Groups s (separateLoop near s.length s) := fun s h => (separateLoop_groups (Nat.le_refl _) (g.nodup s h)).1
  refine ⟨fun x => ?_, fun k hk => ?_, pairwise_flatMap_of g.apart (fun s h => (hs s h).apart) ?_, fun k hk => ?_⟩
  · rw [g.mem]
    constructor
    · rintro ⟨s, h, hx⟩
      obtain ⟨k, hk, hxk⟩ := ((hs s h).mem x).mp hx
      exact ⟨k, List.mem_flatMap.mpr ⟨s, h, hk⟩, hxk⟩
    · rintro ⟨k, hk, hxk⟩
      obtain ⟨s, h, hks⟩ := List.mem_flatMap.mp hk
      exact ⟨s, h, ((hs s h).mem x).mpr ⟨k, hks, hxk⟩⟩
  · obtain ⟨s, h, hks⟩ := List.mem_flatMap.mp hk
    exact (hs s h).nodup k hks
  · intro s h s2 h2 hd k hk k2 hk2 x hx hx2
    exact hd x (((hs s h).mem x).mpr ⟨k, hk, hx⟩) (((hs s2 h2).mem x).mpr ⟨k2, hk2, hx2⟩)
  · obtain ⟨s, h, hks⟩ := List.mem_flatMap.mp hk
    exact (hs s h).full k hks

/-- whatever the two tests answer, every face is in exactly one group, and no group is empty -/
theorem C87_partition (same near : Nat → Nat → Bool) (l : List Nat) (hl : l.Nodup) :
    (sameTorusSurf same near l).flatten.Perm l ∧ ∀ g ∈ sameTorusSurf same near l, g ≠ [] :=
  ⟨(sameTorusSurf_groups hl).flatten hl, (sameTorusSurf_groups hl).full⟩

/-- non-vacuity: five faces, with a test that is neither symmetric nor transitive -/
example : sameTorusSurf (fun i j => (i, j) ∈ [(0, 2), (2, 4), (1, 3)]) (fun i j => (i, j) ∈ [(0, 2), (3, 1)]) [0, 1, 2, 3, 4] = [[0, 2], [1], [3], [4]] := by
  decide +kernel

theorem pairwise_of_ne {α : Type} {R : α → α → Prop} {l : List α} (h : l.Pairwise R) {a b : α} (ha : a ∈ l) (hb : b ∈ l) (hne : a ≠ b) : R a b ∨ R b a := by
  induction l with
  | nil => cases ha
  | cons c l ih =>
    obtain ⟨p1, p2⟩ := List.pairwise_cons.mp h
    rcases List.mem_cons.mp ha with e | ha2
    · rcases List.mem_cons.mp hb with e2 | hb2
      · exact absurd (e.trans e2.symm) hne
      · exact Or.inl (e ▸ p1 b hb2)
    · rcases List.mem_cons.mp hb with e2 | hb2
      · exact Or.inr (e2 ▸ p1 a ha2)
      · exact ih p2 ha2 hb2

/-- with a test `same` that is an equivalence on the faces and a symmetric test `near`, two faces are in the same group exactly when a chain of faces of the
same torus that touch leads from one to the other -/
theorem C87_components (same near : Nat → Nat → Bool) (l : List Nat) (hl : l.Nodup) (hr : ∀ a, same a a = true)
    (hs : ∀ a b, same a b = true → same b a = true) (ht : ∀ a b c, same a b = true → same b c = true → same a c = true)
    (hn : ∀ a b, near a b = true → near b a = true) (x y : Nat) (hx : x ∈ l) :
    (∃ g ∈ sameTorusSurf same near l, x ∈ g ∧ y ∈ g) ↔ ReflTransGen (Joined same near l) x y := by
  obtain ⟨g, hsg, hpg⟩ := sameTorusLoop_groups (same := same) (Nat.le_refl l.length) hl
  have hpg := hpg (fun i _ => hr i) (fun a b c h1 h2 => ht b a c (hs a b h1) h2)
  have hG := sameTorusSurf_groups (same := same) (near := near) hl
  have hsame : ∀ s ∈ sameTorusLoop same l.length l, ∀ a ∈ s, ∀ b ∈ s, same a b = true := by
    intro s h a ha b hb
    obtain ⟨i, _, hi⟩ := hsg s h
    have h1 : same i a = true := by
      rcases hi a ha with rfl | h
      · exact hr a
      · exact h
    have h2 : same i b = true := by
      rcases hi b hb with rfl | h
      · exact hr b
      · exact h
    exact ht a i b (hs i a h1) h2
  have hsep : ∀ s ∈ sameTorusLoop same l.length l, _ := fun s h => separateLoop_groups (near := near) (Nat.le_refl s.length) (g.nodup s h)
  have hsym : ∀ a b, ReflTransGen (Joined same near l) a b → ReflTransGen (Joined same near l) b a := by
    intro a b h
    induction h with
    | refl => exact ReflTransGen.refl
    | tail _ h ih => exact ReflTransGen.head ⟨h.2.1, h.1, hs _ _ h.2.2.1, hn _ _ h.2.2.2⟩ ih
  constructor
  · rintro ⟨k, hk, hxk, hyk⟩
    obtain ⟨s, h, hks⟩ := List.mem_flatMap.mp hk
    obtain ⟨_, hc, _⟩ := hsep s h
    obtain ⟨t, _, htc⟩ := hc k hks
    have hch : ∀ z, Chain near s t z → ReflTransGen (Joined same near l) t z := fun z hz =>
      ReflTransGen.mono (fun a b ⟨h1, h2, h3⟩ =>
        ⟨(g.mem a).mpr ⟨s, h, h1⟩, (g.mem b).mpr ⟨s, h, h2⟩, hsame s h a h1 b h2, h3⟩) _ _ hz
    exact (hsym _ _ (hch x (htc x hxk))).trans (hch y (htc y hyk))
  · intro h
    obtain ⟨k, hk, hxk⟩ := (hG.mem x).mp hx
    refine ⟨k, hk, hxk, ?_⟩
    induction h with
    | refl => exact hxk
    | @tail b c _ hbc ih =>
      obtain ⟨_, hcl, h3, h4⟩ := hbc
      obtain ⟨s, h, hks⟩ := List.mem_flatMap.mp hk
      obtain ⟨gs, _, hp⟩ := hsep s h
      have hbs : b ∈ s := (gs.mem b).mpr ⟨k, hks, ih⟩
      have hcs : c ∈ s := by
        obtain ⟨s2, h2, hcs2⟩ := (g.mem c).mp hcl
        by_cases he : s = s2
        · exact he ▸ hcs2
        · rcases pairwise_of_ne hpg h h2 he with hp | hp
          · exact absurd h3 (hp b hbs c hcs2)
          · exact absurd (hs b c h3) (hp c hcs2 b hbs)
      obtain ⟨k2, hk2, hck2⟩ := (gs.mem c).mp hcs
      by_cases he : k = k2
      · exact he ▸ hck2
      · rcases pairwise_of_ne hp hks hk2 he with hp | hp
        · exact absurd h4 (hp b ih c hck2)
        · exact absurd (hn b c h4) (hp c hck2 b ih)

/-- non-vacuity: two tori (even and odd faces), faces that touch when two apart, except 2 and 4 -/
example : sameTorusSurf (fun i j => i % 2 == j % 2) (fun i j => decide ((i + 2 = j ∧ i ≠ 2) ∨ (j + 2 = i ∧ j ≠ 2))) [0, 1, 2, 3, 4, 5, 6] =
    [[0, 2], [4, 6], [1, 3, 5]] := by
  decide +kernel

/-- the group found through a chain that does not follow the order of the list -/
example : sameTorusSurf (fun _ _ => true) (fun i j => (i, j) ∈ [(0, 3), (3, 0), (3, 1), (1, 3)]) [0, 1, 2, 3] = [[0, 3, 1], [2]] := by
  decide +kernel

end Geouned.Face
