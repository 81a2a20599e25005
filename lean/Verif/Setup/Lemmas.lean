import Verif.Setup.Spec
import Mathlib.Tactic.SplitIfs
import Mathlib.Tactic.Linarith
/-!
# Lemmas for C123
-/
namespace Geouned.Setup

/-- the documented type that a form of setter checks -/
def docOf : Kind → Doc
  | .bool => .bool | .int => .int | .float => .float | .real => .notNegative | .str => .str | .optStr => .strOrNone | .voidMat => .material | .strings => .strings

theorem isInt_iff {v : Val} : isInt v = true ↔ Whole v := by cases v <;> simp [isInt, Whole]
theorem isStr_iff {v : Val} : isStr v = true ↔ ∃ s, v = .str s := by cases v <;> simp [isStr]
theorem isFloat_iff {v : Val} : isFloat v = true ↔ ∃ x, v = .float x := by cases v <;> simp [isFloat]

theorem checkStrings_iff : ∀ {vs : List Val}, checkStrings vs = none ↔ ∀ x ∈ vs, ∃ s, x = .str s
  | [] => by simp [checkStrings]
  | v :: vs => by
    unfold checkStrings
    rw [List.forall_mem_cons, ← checkStrings_iff (vs := vs), ← isStr_iff]
    cases isStr v <;> simp

theorem checkVoidMat_iff {vs : List Val} :
    checkVoidMat vs = none ↔ vs = [] ∨ ∃ a b c, vs = [a, b, c] ∧ Whole a ∧ (Whole b ∨ ∃ x, b = .float x) ∧ ∃ s, c = .str s := by
  unfold checkVoidMat
  match vs with
  | [] => simp
  | [a] => simp
  | [a, b] => simp
  | [a, b, c] =>
    simp only [List.length_cons, List.length_nil, if_true, List.cons.injEq, reduceCtorEq, false_or, and_true, ← isInt_iff, ← isStr_iff, ← isFloat_iff]
    constructor
    · intro h
      refine ⟨a, b, c, ⟨rfl, rfl, rfl⟩, ?_⟩
      revert h
      cases isInt a <;> cases isInt b <;> cases isFloat b <;> cases isStr c <;> simp
    · rintro ⟨_, _, _, ⟨rfl, rfl, rfl⟩, h1, h2, h3⟩
      rw [h1, h3]
      rcases h2 with h2 | h2 <;> simp [h2]
  | a :: b :: c :: d :: l => simp

/-- a setter accepts a value iff it has the type -/
theorem check_iff (lists : Nat → List Val) (k : Kind) (v : Val) : check lists k v = none ↔ Has lists v (docOf k) := by
  cases k
  case bool => cases v <;> simp [check, docOf, Has, isBool]
  case int => cases v <;> simp [check, docOf, Has, isInt, Whole]
  case float => cases v <;> simp [check, docOf, Has, isFloat]
  case real =>
    cases v with
    | float x =>
      cases x with
      | inf neg => cases neg <;> simp [check, docOf, Has, isReal, ltZero]
      | _ => simp [check, docOf, Has, isReal, ltZero]
    | _ => simp [check, docOf, Has, isReal, ltZero]
  case str => cases v <;> simp [check, docOf, Has, isStr]
  case optStr => cases v <;> simp [check, docOf, Has, isStr]
  case voidMat => cases v <;> simp [check, docOf, Has, checkVoidMat_iff]
  case strings => cases v <;> simp [check, docOf, Has, checkStrings_iff]

/-- the parameters are the documented ones -/
theorem documented_eq (c : Cls) (n : String) : documented c n = ((params c).find? (fun p => p.1 = n)).map (fun p => docOf p.2.1) := by
  by_cases h : n ∈ (params c).map Prod.fst
  · cases c <;> simp only [params, List.map_cons, List.map_nil, List.mem_cons, List.not_mem_nil, or_false] at h <;>
      · rcases h with rfl | h
        · decide
        · revert h; intro h
          repeat' (rcases h with rfl | h; · decide)
  · have hf : (params c).find? (fun p => p.1 = n) = none := by
      rw [List.find?_eq_none]
      intro p hp e
      exact h (List.mem_map.2 ⟨p, hp, by simpa using e⟩)
    rw [hf]
    cases c <;> simp only [params, List.map_cons, List.map_nil, List.mem_cons, List.not_mem_nil, or_false, not_or] at h <;> simp [documented, h]

theorem has_mono {l l' : Nat → List Val} {v : Val} {d : Doc} (h : ∀ r, v = .list r → l' r = l r) : Has l v d ↔ Has l' v d := by
  cases d <;> simp only [Has]
  · constructor <;> rintro ⟨r, rfl, k⟩
    · exact ⟨r, rfl, by rw [h r rfl]; exact k⟩
    · exact ⟨r, rfl, by rw [← h r rfl]; exact k⟩
  · constructor <;> rintro ⟨r, rfl, k⟩
    · exact ⟨r, rfl, by rw [h r rfl]; exact k⟩
    · exact ⟨r, rfl, by rw [← h r rfl]; exact k⟩

/-- assignment of a documented parameter -/
theorem setAttr_doc {l : Nat → List Val} {o : Obj} {name : String} {v : Val} {d : Doc} (h : documented o.cls name = some d) :
    (Has l v d ∧ setAttr l o name v = .ok { o with attr := Function.update o.attr name (some v) }) ∨ (¬ Has l v d ∧ ∃ e, setAttr l o name v = .error e) := by
  rw [documented_eq] at h
  cases hf : (params o.cls).find? (fun p => p.1 = name) with
  | none => rw [hf] at h; cases h
  | some p =>
    obtain ⟨n, k, dv⟩ := p
    rw [hf] at h
    simp only [Option.map_some, Option.some.injEq] at h
    subst h
    rw [← check_iff]
    unfold setAttr
    rw [hf]
    dsimp only
    cases hc : check l k v with
    | none => exact .inl ⟨rfl, rfl⟩
    | some e => exact .inr ⟨by simp, e, rfl⟩

theorem setAttr_ok {l : Nat → List Val} {o o' : Obj} {name : String} {v : Val} (h : setAttr l o name v = .ok o') :
    o' = { o with attr := Function.update o.attr name (some v) } ∧ ∀ d, documented o.cls name = some d → Has l v d := by
  constructor
  · unfold setAttr at h
    split at h
    · split at h
      · cases h
      · cases h; rfl
    · cases h; rfl
  · intro d hd
    rcases setAttr_doc (l := l) (v := v) hd with ⟨k, -⟩ | ⟨-, e, he⟩
    · exact k
    · rw [he] at h; cases h

theorem initLoop_ok {l : Nat → List Val} {args : List (String × Val)} : ∀ {ps : List (String × Kind × Val)} {o o' : Obj}, (ps.map Prod.fst).Nodup → initLoop l args o ps = .ok o' →
    o'.cls = o.cls ∧ (∀ p ∈ ps, o'.attr p.1 = some ((args.lookup p.1).getD p.2.2) ∧ ∀ d, documented o.cls p.1 = some d → Has l ((args.lookup p.1).getD p.2.2) d)
      ∧ ∀ n, n ∉ ps.map Prod.fst → o'.attr n = o.attr n
  | [], o, o', _, h => by
    simp only [initLoop, Except.ok.injEq] at h
    subst h
    simp
  | (name, k, dv) :: ps, o, o', hn, h => by
    simp only [List.map_cons, List.nodup_cons] at hn
    unfold initLoop at h
    cases h1 : setAttr l o name ((args.lookup name).getD dv) with
    | error e => rw [h1] at h; cases h
    | ok o1 =>
      rw [h1] at h
      obtain ⟨a1, a2⟩ := setAttr_ok h1
      obtain ⟨b1, b2, b3⟩ := initLoop_ok hn.2 h
      have hc : o1.cls = o.cls := by rw [a1]
      refine ⟨b1.trans hc, ?_, ?_⟩
      · intro p hp
        rcases List.mem_cons.1 hp with rfl | hp
        · refine ⟨?_, a2⟩
          rw [b3 _ hn.1, a1]
          simp
        · rw [← hc]; exact b2 p hp
      · intro n hn'
        simp only [List.map_cons, List.mem_cons, not_or] at hn'
        rw [b3 n hn'.2, a1]
        simp [Function.update, hn'.1]

theorem initLoop_total {l : Nat → List Val} {args : List (String × Val)} : ∀ {ps : List (String × Kind × Val)} {o : Obj}, 
    (∀ p ∈ ps, ∃ d, documented o.cls p.1 = some d ∧ Has l ((args.lookup p.1).getD p.2.2) d) → ∃ o', initLoop l args o ps = .ok o'
  | [], o, _ => ⟨o, rfl⟩
  | (name, k, dv) :: ps, o, h => by
    obtain ⟨d, h1, h2⟩ := h _ List.mem_cons_self
    unfold initLoop
    rcases setAttr_doc (l := l) (v := (args.lookup name).getD dv) h1 with ⟨-, e⟩ | ⟨k, -⟩
    · rw [e]
      exact initLoop_total fun p hp => h p (List.mem_cons_of_mem _ hp)
    · exact absurd h2 k

theorem params_nodup (c : Cls) : ((params c).map Prod.fst).Nodup := by cases c <;> decide

theorem mem_params_of_documented {c : Cls} {n : String} {d : Doc} (h : documented c n = some d) : ∃ p ∈ params c, p.1 = n ∧ docOf p.2.1 = d := by
  rw [documented_eq] at h
  cases hf : (params c).find? (fun p => p.1 = n) with
  | none => rw [hf] at h; cases h
  | some p =>
    rw [hf] at h
    exact ⟨p, List.mem_of_find?_eq_some hf, by simpa using List.find?_some hf, by simpa using h⟩

theorem documented_of_mem {c : Cls} {p : String × Kind × Val} (h : p ∈ params c) : documented c p.1 = some (docOf p.2.1) := by
  revert p
  cases c <;> decide

/-- the default values have their types, if the default lists are empty -/
theorem default_has {l : Nat → List Val} (h0 : l 0 = []) (h1 : l 1 = []) {c : Cls} {p : String × Kind × Val} (h : p ∈ params c) : Has l p.2.2 (docOf p.2.1) := by
  rw [← check_iff]
  cases c <;> simp only [params, List.mem_cons, List.not_mem_nil, or_false] at h <;>
    · repeat' (rcases h with rfl | h; · simp [check, isBool, isInt, isReal, isStr, isFloat, ltZero, flt, h0, h1, checkVoidMat, checkStrings])

end Geouned.Setup
