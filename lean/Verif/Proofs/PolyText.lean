import Verif.Proofs.PolyList
import Verif.Proofs.IntText
import Verif.Proofs.FracText
/-!
# Printing factors, terms and polynomials
-/

namespace CppMaths
open BigInt

/-- The Int 10^(9k). -/
def bigPow (k : Nat) : BigInt := ⟨List.replicate k 0 ++ [1], false⟩

theorem bigPow_mag (k : Nat) : mag (List.replicate k 0 ++ [1]) = 10 ^ (9 * k) := by
  induction k with
  | zero => rfl
  | succ k ih =>
    rw [List.replicate_succ, List.cons_append, mag, ih, show 9 * (k + 1) = 9 * k + 9 by ring, pow_add]
    ring

theorem bigPow_val (k : Nat) : (bigPow k).val = 10 ^ (9 * k) := by
  unfold bigPow BigInt.val
  rw [if_neg (by simp)]
  exact bigPow_mag k

theorem bigPow_canon (k : Nat) : Canon (bigPow k) := by
  refine ⟨⟨by simp [bigPow], fun b hb => ?_⟩, .inr (by simp [bigPow]), by simp [bigPow]⟩
  simp only [bigPow, List.mem_append, List.mem_replicate, List.mem_singleton] at hb
  omega

theorem bigPow_equals (k : Nat) : (bigPow k).equalsInt32 1 = .ok true := by
  unfold bigPow equalsInt32
  have h : ((List.replicate k (0 : Int) ++ [1]).dropLast.any (· != 0)) = false := by
    simp [List.dropLast_concat]
  simp [i32, h]

theorem equalsInt32_one {a : BigInt} (h : Canon a) : a.equalsInt32 1 = .ok true ∧ (∃ k : Nat, a.val = 10 ^ (9 * k)) ∨
    a.equalsInt32 1 = .ok false ∧ ∀ k : Nat, a.val ≠ 10 ^ (9 * k) := by
  obtain ⟨r, r1, r2⟩ := equalsInt32_spec h.1 (v := 1) (by omega) (by omega)
  cases r with
  | true =>
    left
    refine ⟨r1, a.bins.length - 1, ?_⟩
    obtain ⟨e1, _, e3⟩ := r2.mp rfl
    have hn : a.negative = false := by simpa using e3
    unfold BigInt.val
    rw [hn, if_neg (by simp), e1, abs_one, one_mul, pow_mul]
    norm_num
  | false =>
    right
    refine ⟨r1, fun k hk => ?_⟩
    have := h.eq_of_val_eq (bigPow_canon k) (by rw [hk, bigPow_val])
    rw [this, bigPow_equals] at r1
    cases r1

theorem Factor.print_spec {f : Factor} (h : Canon f.power) :
    ((∃ k : Nat, f.power.val = 10 ^ (9 * k)) → f.print = .ok f.id) ∧
    ((∀ k : Nat, f.power.val ≠ 10 ^ (9 * k)) → f.print = .ok (f.id ++ '^' :: numeral f.power.val)) := by
  have hp : BigInt.print f.power = numeral f.power.val := print_numeral h.1 (fun hn h0 => h.2.2 hn (val_eq_zero_iff.mp h0))
  unfold Factor.print
  rcases equalsInt32_one h with ⟨h1, h2⟩ | ⟨h1, h2⟩
  · exact ⟨fun _ => by rw [h1]; rfl, fun h3 => absurd h2 (by simpa using h3)⟩
  · refine ⟨fun ⟨k, hk⟩ => absurd hk (h2 k), fun _ => ?_⟩
    rw [h1, bind_ok, if_neg (by simp), hp]
    simp

/-- The power is not one of those that are mistaken for 1. -/
def Plain (e : ℤ) : Prop := ∀ k : Nat, 1 ≤ k → e ≠ 10 ^ (9 * k)

theorem Factor.print_plain {f : Factor} (h : Canon f.power) (hp : Plain f.power.val) : f.print = .ok (powerText f.id f.power.val) := by
  unfold powerText
  by_cases h1 : f.power.val = 1
  · rw [if_pos h1]
    exact (Factor.print_spec h).1 ⟨0, by simpa using h1⟩
  · rw [if_neg h1]
    refine (Factor.print_spec h).2 fun k => ?_
    rcases Nat.eq_zero_or_pos k with rfl | hk
    · simpa using h1
    · exact hp k hk

theorem intercalate_eq {α : Type} (sep a : List α) (l : List (List α)) :
    List.intercalate sep (a :: l) = a ++ (l.map (sep ++ ·)).flatten := by
  induction l generalizing a with
  | nil => simp [List.intercalate]
  | cons b l ih =>
    rw [List.intercalate_cons_cons, ih]
    simp

namespace Term

theorem printRest_spec {m : FactorMap} (hm : FactorMap.OK m) (hp : ∀ p ∈ m, Plain p.2.power.val) :
    printRest m = .ok ((m.map fun p => " * ".toList ++ powerText p.1 p.2.power.val).flatten) := by
  induction m with
  | nil => rfl
  | cons p m ih =>
    obtain ⟨k, f⟩ := p
    obtain ⟨h1, h2⟩ := hm.keys (k, f) (List.mem_cons_self ..)
    simp only at h1 h2
    unfold printRest
    rw [Factor.print_plain h2 (hp (k, f) (List.mem_cons_self ..)), bind_ok,
      ih hm.tail (fun q hq => hp q (List.mem_cons_of_mem _ hq)), bind_ok, h1]
    simp

theorem ofI32_spec {n : Int} (h : n = 0 ∨ n = 1 ∨ n = -1) : ∃ f, Frac.ofI32 n = .ok f ∧ f.Valid ∧ f.value = n := by
  rcases h with rfl | rfl | rfl
  · exact ⟨⟨⟨[0], false⟩, ⟨[1], false⟩⟩, by decide +kernel, by decide, by simp [Frac.value, BigInt.val, mag]⟩
  · exact ⟨⟨⟨[1], false⟩, ⟨[1], false⟩⟩, by decide +kernel, by decide, by simp [Frac.value, BigInt.val, mag]⟩
  · exact ⟨⟨⟨[1], true⟩, ⟨[1], false⟩⟩, by decide +kernel, by decide, by simp [Frac.value, BigInt.val, mag]⟩

theorem frac_print {f : Frac} (h : f.Valid) : Frac.print f = ratioText f.value := by
  rw [Frac.print_eq h]
  unfold ratioText
  rw [h.num, h.den]
  simp

theorem print_spec {t : Term} (ht : t.WF) (hp : ∀ p ∈ t.factors, Plain p.2.power.val) :
    t.print = .ok (termText t.coeff.value (t.factors.map fun p => (p.1, p.2.power.val))) := by
  obtain ⟨z, z1, z2, z3⟩ := ofI32_spec (n := 0) (by simp)
  obtain ⟨o, o1, o2, o3⟩ := ofI32_spec (n := 1) (by simp)
  unfold print termText
  rw [z1, bind_ok, o1, bind_ok, Frac.eq_spec ht.coeff z2, bind_ok, z3, Frac.eq_spec ht.coeff o2, o3]
  simp only [Int.cast_zero, Int.cast_one, bind_ok]
  by_cases h0 : t.coeff.value = 0
  · simp [h0]
  · simp only [h0, decide_false, if_false, Bool.false_eq_true]
    have hr := printRest_spec ht.map hp
    have hk := ht.keys
    cases hm : t.factors with
    | nil =>
      by_cases h1 : t.coeff.value = 1
      · simp [h1]
      · simp [h1, frac_print ht.coeff, List.intercalate]
    | cons p r =>
      obtain ⟨k, f⟩ := p
      rw [hm] at hr hk hp
      obtain ⟨k1, k2⟩ := hk (k, f) (List.mem_cons_self ..)
      simp only at k1 k2
      have hok : FactorMap.OK r := by have := ht.map; rw [hm] at this; exact this.tail
      by_cases h1 : t.coeff.value = 1
      · simp only [h1, decide_true, if_true]
        rw [Factor.print_plain k2 (hp (k, f) (List.mem_cons_self ..)), bind_ok,
          printRest_spec hok (fun q hq => hp q (List.mem_cons_of_mem _ hq)), bind_ok, ← k1]
        simp only [pure_ok, List.nil_append, List.map_cons, if_neg (List.cons_ne_nil _ _)]
        rw [intercalate_eq, List.map_map, List.map_map]
        rfl
      · simp only [h1, decide_false, Bool.false_eq_true, if_false]
        rw [hr, bind_ok, frac_print ht.coeff]
        simp only [pure_ok, List.singleton_append, if_neg (List.cons_ne_nil _ _)]
        rw [intercalate_eq, List.map_map, List.map_map]
        rfl

end Term

namespace Poly

theorem printRest_spec {l : List Term} (hl : ∀ t ∈ l, t.WF) (hp : ∀ t ∈ l, ∀ p ∈ t.factors, Plain p.2.power.val) :
    printRest l = .ok ((l.map fun t => " + ".toList ++
      termText t.coeff.value (t.factors.map fun p => (p.1, p.2.power.val))).flatten) := by
  induction l with
  | nil => rfl
  | cons t l ih =>
    unfold printRest
    rw [Term.print_spec (hl t (List.mem_cons_self ..)) (hp t (List.mem_cons_self ..)), bind_ok,
      ih (fun s hs => hl s (List.mem_cons_of_mem _ hs)) (fun s hs => hp s (List.mem_cons_of_mem _ hs)), bind_ok]
    simp

theorem print_spec {p : Poly} (hl : p.WF) (hp : ∀ t ∈ p.terms, ∀ q ∈ t.factors, Plain q.2.power.val) :
    p.print = .ok (List.intercalate " + ".toList (p.terms.map fun t =>
      termText t.coeff.value (t.factors.map fun p => (p.1, p.2.power.val)))) := by
  obtain ⟨l⟩ := p
  unfold Poly.WF at hl
  unfold print
  simp only at hl hp ⊢
  cases l with
  | nil => rfl
  | cons t l =>
    simp only
    rw [Term.print_spec (hl t (List.mem_cons_self ..)) (hp t (List.mem_cons_self ..)), bind_ok,
      printRest_spec (fun s hs => hl s (List.mem_cons_of_mem _ hs)) (fun s hs => hp s (List.mem_cons_of_mem _ hs)), bind_ok,
      List.map_cons, intercalate_eq, List.map_map]
    rfl

end Poly
end CppMaths
