import Verif.RBool.Lemmas
import Verif.Text.Props
import Verif.Bool.Props
/-!
# C113: the definition GEOReverse builds from the text of a cell

What a text means is specified in `Text/Spec.lean` (`Means`), partial knowledge of the sides of surfaces in `RBool/Spec.lean`.
-/
namespace Geouned.RBool
open Geouned Geouned.Text

/-- **C113.** `BoolSequence(text)` accepts every well-formed text, and the expression it builds holds at a point exactly when the text does by
the syntax rules. `f` is the recursion depth allowed: more than the number of tokens is enough. -/
theorem C113_parse (ts : List Tok) (h : Readable ts) (f : Nat) (hf : ts.length < f) :
    ∃ q, setDef f ts = .ok q ∧ ∀ σ b, Means σ ts b ↔ b = q.sem σ := by
  have hn : nums ts < f := Nat.lt_of_le_of_lt (nums_le ts) hf
  have hq : ∀ σ b, Means σ ts b → ∃ q, setDef f ts = .ok q ∧ q.sem σ = b := by
    intro σ b hm
    obtain ⟨q, h1, -, -, h3⟩ := setDef_spec f ts σ b hn (reads_top hm)
    exact ⟨q, h1, h3⟩
  obtain ⟨σ0, b0, h0⟩ := h
  obtain ⟨q, h1, -⟩ := hq σ0 b0 h0
  have key : ∀ σ b, Means σ ts b → b = q.sem σ := by
    intro σ b hm
    obtain ⟨q', h1', h3⟩ := hq σ b hm
    rw [h1] at h1'
    cases h1'
    exact h3.symm
  refine ⟨q, h1, fun σ b => ⟨key σ b, ?_⟩⟩
  rintro rfl
  obtain ⟨b, hb⟩ := Readable.means ⟨σ0, b0, h0⟩ σ
  rw [← key σ b hb]
  exact hb

/-- **C113.** `evaluate`, called any number of times on the definition built from a text (each call regroups the definition): no call raises an
exception; an answer `True` or `False` is what the text means at every point that the dictionary of known sides may describe; and when the
dictionary knows the side of all surfaces written in the text, the answer is not `None`. -/
theorem C113_evaluate (ts : List Tok) (h : Readable ts) (f : Nat) (hf : ts.length < f) (l : List (Nat → Option (Option Bool))) :
    ∃ q q' answers, setDef f ts = .ok q ∧ evaluates f l q = .ok (q', answers) ∧ answers.length = l.length ∧
      ∀ (k : Nat) vs a, l[k]? = some vs → answers[k]? = some a →
        (∀ b, a = some b → ∀ σ, Fits σ vs → Means σ ts b) ∧
        ((∀ n, written ts n → ∃ b, vs n = some (some b)) → ∃ b, a = some b) := by
  obtain ⟨q, hq, hsem⟩ := C113_parse ts h f hf
  obtain ⟨σ0, b0, h0⟩ := h
  have hn : nums ts < f := Nat.lt_of_le_of_lt (nums_le ts) hf
  obtain ⟨q1, e1, hm, hd, -⟩ := setDef_spec f ts σ0 b0 hn (reads_top h0)
  rw [hq] at e1; cases e1
  have gen : ∀ (l : List Known) (s : Seq), Made ts s → wd s ≤ f → (∀ σ, s.sem σ = q.sem σ) →
      ∃ q' answers, evaluates f l s = .ok (q', answers) ∧ answers.length = l.length ∧
        ∀ (k : Nat) vs a, l[k]? = some vs → answers[k]? = some a →
          (∀ b, a = some b → ∀ σ, Fits σ vs → Means σ ts b) ∧
          ((∀ n, written ts n → ∃ b, vs n = some (some b)) → ∃ b, a = some b) := by
    intro l
    induction l with
    | nil => intro s _ _ _; exact ⟨s, [], rfl, rfl, by simp⟩
    | cons vs l ih =>
      intro s hs hds hss
      obtain ⟨x, hx, ha⟩ := evaluate_spec (vs := vs) f s hs.fine hds
      obtain ⟨q', as, h1, h2, h3⟩ := ih x.1 (ha.keep ts hs) (Nat.le_trans ha.deep hds) (fun σ => by rw [ha.same, hss])
      refine ⟨q', x.2 :: as, by simp only [evaluates, hx, h1, bind, Except.bind], by simp [h2], ?_⟩
      intro k ws a hk1 hk2
      cases k with
      | zero =>
        simp at hk1 hk2
        subst hk1 hk2
        refine ⟨fun b hb σ hσ => (hsem σ b).2 ?_, fun hall => ha.full fun v hv => hall v (hs.occ v hv)⟩
        rw [← hss σ]; exact (ha.sound b hb σ hσ).symm
      | succ k =>
        simp at hk1 hk2
        exact h3 k ws a hk1 hk2
  obtain ⟨q', as, h1, h2, h3⟩ := gen l q hm (by omega) (fun _ => rfl)
  exact ⟨q, q', as, hq, h1, h2, h3⟩

/-- **C113.** `get_complementary` of the definition built from a text: its value is the opposite at every point, and the definition itself keeps
its meaning. -/
theorem C113_complement (ts : List Tok) (h : Readable ts) (f : Nat) (hf : ts.length + 1 < f) :
    ∃ q q' c, setDef f ts = .ok q ∧ Seq.comp f q = .ok (q', c) ∧ ∀ σ, Means σ ts (q'.sem σ) ∧ c.sem σ = !(q'.sem σ) := by
  obtain ⟨q, hq, hsem⟩ := C113_parse ts h f (by omega)
  obtain ⟨σ0, b0, h0⟩ := h
  have hn : nums ts < f := Nat.lt_of_le_of_lt (nums_le ts) (by omega)
  obtain ⟨q1, e1, hm, hd, -⟩ := setDef_spec f ts σ0 b0 hn (reads_top h0)
  rw [hq] at e1; cases e1
  obtain ⟨op, l, es, rfl⟩ := hm.sq
  have := nums_le ts
  obtain ⟨s', c, h1, -, -, h2, h3⟩ := C09_get_complementary f op l es hm.wf hm.nb (by have := depth_le_wd (.lst op l es); omega)
  exact ⟨_, s', c, hq, h1, fun σ => ⟨(hsem σ _).2 (h2 σ), by rw [h3, h2]⟩⟩

/-! ### a concrete text: `1 (-2:( 3 4))` -/

example : setDef 13 sample = .ok (.lst .and 2 [.lst .and 0 [.int 1], .lst .or 1 [.lst .or 0 [.int (-2)], .lst .and 0 [.int 3, .int 4]]]) := rfl

example : Readable sample ∧ sample.length < 13 := ⟨sample_readable, by decide⟩

/-- a surface known to be on the wrong side decides; with surfaces 1 and 2 on the right side the rest does not matter; otherwise `None` -/
example : (evaluates 13 [fun n => if n = 1 then some (some false) else none, fun n => if n ≤ 2 then some (some (n == 1)) else none, fun _ => none]
    (.lst .and 2 [.lst .and 0 [.int 1], .lst .or 1 [.lst .or 0 [.int (-2)], .lst .and 0 [.int 3, .int 4]]])).map (·.2)
    = .ok [some false, some true, none] := rfl

end Geouned.RBool
