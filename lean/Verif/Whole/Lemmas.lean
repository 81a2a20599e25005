import Verif.Whole.Spec
import Mathlib.Data.List.Forall2
import Mathlib.Data.List.Perm.Basic
/-!
# Lemmas on lists of which exactly one element has a property
-/
namespace Geouned.Whole

variable {α β : Type}

theorem exactlyOne_iff {P : α → Prop} {l : List α} : ExactlyOne P l ↔ AtMostOne P l ∧ ∃ a ∈ l, P a := by
  constructor
  · rintro ⟨l1, a, l2, rfl, ha, h⟩
    refine ⟨?_, a, by simp, ha⟩
    unfold AtMostOne
    rw [List.pairwise_append, List.pairwise_cons]
    refine ⟨List.pairwise_of_forall_mem_list fun x hx y _ k => h x (by simp [hx]) k.1, ⟨fun x hx k => h x (by simp [hx]) k.2,
      List.pairwise_of_forall_mem_list fun x hx y _ k => h x (by simp [hx]) k.1⟩, fun x hx y _ k => h x (by simp [hx]) k.1⟩
  · rintro ⟨h, a, ha, hp⟩
    obtain ⟨l1, l2, rfl⟩ := List.append_of_mem ha
    refine ⟨l1, a, l2, rfl, hp, fun b hb k => ?_⟩
    unfold AtMostOne at h
    rw [List.pairwise_append, List.pairwise_cons] at h
    rcases List.mem_append.1 hb with hb | hb
    · exact h.2.2 b hb a (by simp) ⟨k, hp⟩
    · exact h.2.1.1 b hb ⟨hp, k⟩

theorem AtMostOne.perm {P : α → Prop} {l l' : List α} (h : AtMostOne P l) (hp : l.Perm l') : AtMostOne P l' :=
  (List.Perm.pairwise_iff (fun hab k => hab ⟨k.2, k.1⟩) hp).1 h

theorem ExactlyOne.perm {P : α → Prop} {l l' : List α} (h : ExactlyOne P l) (hp : l.Perm l') : ExactlyOne P l' := by
  rw [exactlyOne_iff] at h ⊢
  obtain ⟨h1, a, ha, h2⟩ := h
  exact ⟨h1.perm hp, a, hp.mem_iff.1 ha, h2⟩

theorem AtMostOne.forall₂ {P : α → Prop} {Q : β → Prop} {l : List α} {l' : List β} (h : List.Forall₂ (fun a b => P a ↔ Q b) l l') (hl : AtMostOne P l) : AtMostOne Q l' := by
  induction h with
  | nil => exact .nil
  | cons hab hr ih =>
    rename_i a b l l'
    unfold AtMostOne at hl ⊢
    rw [List.pairwise_cons] at hl ⊢
    refine ⟨fun y hy k => ?_, ih hl.2⟩
    obtain ⟨x, hx, hxy⟩ : ∃ x ∈ l, P x ↔ Q y := by
      clear ih hl
      induction hr with
      | nil => cases hy
      | cons hcd _ ih' =>
        rcases List.mem_cons.1 hy with rfl | hy
        · exact ⟨_, by simp, hcd⟩
        · obtain ⟨x, hx, k⟩ := ih' hy
          exact ⟨x, by simp [hx], k⟩
    exact hl.1 x hx ⟨hab.2 k.1, hxy.2 k.2⟩

theorem ExactlyOne.forall₂ {P : α → Prop} {Q : β → Prop} {l : List α} {l' : List β} (h : List.Forall₂ (fun a b => P a ↔ Q b) l l') (hl : ExactlyOne P l) : ExactlyOne Q l' := by
  rw [exactlyOne_iff] at hl ⊢
  refine ⟨hl.1.forall₂ h, ?_⟩
  obtain ⟨-, a, ha, hp⟩ := hl
  induction h with
  | nil => cases ha
  | cons hab _ ih =>
    rcases List.mem_cons.1 ha with rfl | ha
    · exact ⟨_, by simp, hab.1 hp⟩
    · obtain ⟨b, hb, hq⟩ := ih ha
      exact ⟨b, by simp [hb], hq⟩

theorem AtMostOne.append {P : α → Prop} {l l' : List α} (h : AtMostOne P l) (h' : AtMostOne P l') (hd : (∀ a ∈ l, ¬ P a) ∨ ∀ a ∈ l', ¬ P a) : AtMostOne P (l ++ l') := by
  unfold AtMostOne
  rw [List.pairwise_append]
  refine ⟨h, h', fun a ha b hb k => ?_⟩
  rcases hd with hd | hd
  · exact hd a ha k.1
  · exact hd b hb k.2

theorem atMostOne_none {P : α → Prop} {l : List α} (h : ∀ a ∈ l, ¬ P a) : AtMostOne P l :=
  List.pairwise_of_forall_mem_list fun x hx _ _ k => h x hx k.1

theorem AtMostOne.filterMap {Q : α → Prop} {P : β → Prop} {g : α → Option β} {l : List α} (h : l.Pairwise fun a b => ¬ (Q a ∧ Q b)) (hg : ∀ a ∈ l, ∀ b, g a = some b → P b → Q a) :
    AtMostOne P (l.filterMap g) := by
  unfold AtMostOne
  rw [List.pairwise_filterMap]
  induction h with
  | nil => exact .nil
  | cons h1 h2 ih =>
    refine .cons (fun x hx b hb b' hb' k => h1 x hx ⟨hg _ (by simp) b hb k.1, hg x (by simp [hx]) b' hb' k.2⟩) (ih fun a ha => hg a (by simp [ha]))

theorem forall₂_mem {R : α → β → Prop} {l : List α} {l' : List β} (h : List.Forall₂ R l l') {a : α} (ha : a ∈ l) : ∃ b ∈ l', R a b := by
  induction h with
  | nil => cases ha
  | cons hab _ ih =>
    rcases List.mem_cons.1 ha with rfl | ha
    · exact ⟨_, by simp, hab⟩
    · obtain ⟨b, hb, k⟩ := ih ha
      exact ⟨b, by simp [hb], k⟩

theorem forall₂_join {γ : Type} {R : α → β → Prop} {S : α → γ → Prop} {T : β → γ → Prop} {l : List α} {l1 : List β} {l2 : List γ} (h : List.Forall₂ R l l1)
    (h' : List.Forall₂ S l l2) (k : ∀ a b c, R a b → S a c → T b c) : List.Forall₂ T l1 l2 := by
  induction h generalizing l2 with
  | nil => cases h'; exact .nil
  | cons hab _ ih =>
    cases h' with
    | cons hac hr => exact .cons (k _ _ _ hab hac) (ih hr)

end Geouned.Whole
