import Verif.Proofs.FracReleaseAux
import Verif.Proofs.ReleaseScalar
import Verif.Props.Frac
import Verif.Props.FracText
import Verif.Props.FracLinear
import Verif.Props.MatElim
import Verif.Props.Safe
import Verif.Props.Transfer
import Verif.Proofs.Witness
/-!
# C128 - C132: fractions, vectors and matrices in a build without assertions
-/

namespace CppMaths
open BigInt Frac

/-! ### C128: exact or `out_of_range` -/

/-- C128. For all objects, valid or not: what a build with assertions returns, a build without them returns as well. -/
theorem C128_same_results (x y : Frac) (a b : BigInt) (op : FOp) (r : Frac) :
    (op.run x y = .ok r → op.runR x y = .ok r) ∧ (op.runInt x a = .ok r → op.runIntR x a = .ok r) ∧
    (op.intRun a x = .ok r → op.intRunR a x = .ok r) ∧ (op.asgVal x y = .ok r → op.asgValU x y = .ok r) ∧
    (op.asgInt x a = .ok r → op.asgIntU x a = .ok r) ∧ (opPow x a = .ok r → opPowR x a = .ok r) ∧
    (powAssign x a = .ok r → powAssignU x a = .ok r) ∧ (mk' a b = .ok r → mkR a b = .ok r) ∧
    (reciprocal x = .ok r → reciprocalR x = .ok r) ∧ (∀ t, lt x y = .ok t → ltR x y = .ok t) ∧
    (∀ s, Frac.ofString s = .ok r → ofStringR s = .ok r) ∧
    (∀ fin s, fromDouble fin s = .ok r → fromDoubleR fin s = .ok r) ∧
    (∀ s s', Frac.read s x = .ok (s', r) → readU s x = .ok (s', r)) :=
  ⟨op.run_keeps x y r, op.runInt_keeps x a r, op.intRun_keeps a x r, op.asgVal_keeps x y r, op.asgInt_keeps x a r, opPow_keeps x a r,
    powAssign_keeps x a r, mk'_keeps a b r, mk'_keeps _ _ r, lt_keeps x y, fun s => ofString_keeps s r, fun fin s => fromDouble_keeps fin s r,
    fun s _ => read_keeps s x⟩

example : Frac.opAdd ⟨⟨[1], false⟩, ⟨[6], false⟩⟩ ⟨⟨[1], false⟩, ⟨[3], false⟩⟩ = .ok ⟨⟨[1], false⟩, ⟨[2], false⟩⟩ ∧
    Frac.opAddR ⟨⟨[1], false⟩, ⟨[6], false⟩⟩ ⟨⟨[1], false⟩, ⟨[3], false⟩⟩ = .ok ⟨⟨[1], false⟩, ⟨[2], false⟩⟩ := by decide +kernel

/-- C128. `+`, `-`, `*`, `/` between fractions in lowest terms, or a fraction and an `Int`, and the compound assignments: exactly the
rational result in lowest terms, or `out_of_range`, thrown exactly if the reduction of the unreduced parts meets a division of `Int`s
that loses a bin. -/
theorem C128_operators {x y : Frac} {a : BigInt} (hx : x.Valid) (hy : y.Valid) (ha : Canon a) (op : FOp) (v : ℚ) :
    (op.sem x.value y.value = some v →
      YieldsOrThrows (op.runR x y) v (op.parts x.value y.value).1 (op.parts x.value y.value).2 ∧
      YieldsOrThrows (drop (op.asgValU x y)) v (op.parts x.value y.value).1 (op.parts x.value y.value).2) ∧
    (op.sem x.value a.val = some v →
      YieldsOrThrows (op.runIntR x a) v (op.parts x.value a.val).1 (op.parts x.value a.val).2 ∧
      YieldsOrThrows (drop (op.asgIntU x a)) v (op.parts x.value a.val).1 (op.parts x.value a.val).2) ∧
    (op.sem a.val x.value = some v →
      YieldsOrThrows (op.intRunR a x) v (op.parts a.val x.value).1 (op.parts a.val x.value).2) :=
  ⟨fun h => ⟨redQR_yields (op.runR_red hx hy) h, mredQU_yields (op.asgValU_red hx hy) h⟩,
    fun h => ⟨redQR_yields (op.runIntR_red hx ha) h, mredQU_yields (op.asgIntU_red hx ha) h⟩,
    fun h => redQR_yields (op.intRunR_red hx ha) h⟩

example := C128_operators (x := ⟨⟨[1], false⟩, ⟨[0, 0, 1], false⟩⟩) (y := ⟨⟨[5], true⟩, ⟨[6], false⟩⟩) (a := ⟨[7], false⟩) (by decide) (by decide) (by decide) .div

/-- C128. Dividing by zero throws `divide_by_zero_error` in this build, too. (The compound assignments do not check; see C34.) -/
theorem C128_division_by_zero {x y : Frac} {a : BigInt} (hx : x.Valid) (hy : y.Valid) (ha : Canon a) :
    (y.value = 0 → Frac.opDivR x y = .error .divideByZero ∧ intDivR a y = .error .divideByZero ∧ reciprocalR y = .error .divideByZero) ∧
    (a.val = 0 → divIntR x a = .error .divideByZero) ∧ (∀ t, Canon t → a.val = 0 → mkR t a = .error .divideByZero) := by
  refine ⟨fun h => ⟨?_, ?_, ?_⟩, fun h => ?_, fun t ht h => (mkR_right ht.1 ha.1).1 h⟩
  · exact redQR_throws (op := .div) (FOp.runR_red .div hx hy) (by simp [FOp.sem, h])
  · exact redQR_throws (op := .div) (FOp.intRunR_red .div hy ha) (by simp [FOp.sem, h])
  · exact (reciprocalR_red hy).1 (hy.tt_zero.mpr h)
  · exact redQR_throws (op := .div) (FOp.runIntR_red .div hx ha) (by simp [FOp.sem, h])

example := C128_division_by_zero (x := ⟨⟨[1], false⟩, ⟨[2], false⟩⟩) (y := ⟨⟨[0], false⟩, ⟨[1], false⟩⟩) (a := ⟨[0], false⟩) (by decide) (by decide) (by decide)

/-- C128. Construction from two numbers, and `reciprocal`. -/
theorem C128_construction {t b : BigInt} {x : Frac} (ht : Canon t) (hb : Canon b) (hx : x.Valid) :
    (b.val ≠ 0 → YieldsOrThrows (mkR t b) ((t.val : ℚ) / b.val) t.val b.val) ∧
    (x.value ≠ 0 → YieldsOrThrows (reciprocalR x) (x.value⁻¹) x.bb.val x.tt.val) := by
  refine ⟨fun h => ⟨(red_mkR ht hb).2.1 h, (red_mkR ht hb).2.2 h⟩, fun h => ?_⟩
  have h0 : x.tt.val ≠ 0 := fun hz => h (hx.tt_zero.mp hz)
  obtain ⟨_, r2, r3⟩ := reciprocalR_red hx
  refine ⟨fun ha => ?_, r3 h0⟩
  have := r2 h0 ha
  rwa [show (x.bb.val : ℚ) / x.tt.val = x.value⁻¹ by unfold value; rw [inv_div]] at this

example := C128_construction (t := ⟨[6], false⟩) (b := ⟨[4], true⟩) (x := ⟨⟨[5], true⟩, ⟨[6], false⟩⟩) (by decide) (by decide) (by decide)

/-- C128. Powers, for the exponents for which the power of an `Int` is right (C08; in particular below 10^9): `^` gives the exact power,
`^=` the power with the magnitude of the exponent (C38). -/
theorem C128_powers {x : Frac} {a : BigInt} (hx : x.Valid) (ha : Canon a) (hg : GoodExp |a.val|) :
    (0 ≤ a.val → YieldsOrThrows (opPowR x a) (x.value ^ a.val) (x.tt.val ^ a.val.natAbs) (x.bb.val ^ a.val.natAbs)) ∧
    (a.val < 0 → x.value ≠ 0 → YieldsOrThrows (opPowR x a) (x.value ^ a.val) (x.bb.val ^ a.val.natAbs) (x.tt.val ^ a.val.natAbs)) ∧
    (a.val < 0 → x.value = 0 → opPowR x a = .error .divideByZero) ∧
    YieldsOrThrows (drop (powAssignU x a)) (x.value ^ |a.val|) (x.tt.val ^ a.val.natAbs) (x.bb.val ^ a.val.natAbs) := by
  refine ⟨fun h0 => ?_, fun h0 hne => ?_, fun h0 hz => ?_, ?_⟩
  · rw [abs_of_nonneg h0] at hg
    obtain ⟨_, r2, r3⟩ := opPowR_red_nonneg ha hx h0 hg
    rw [show a.val.toNat = a.val.natAbs by omega] at r2 r3
    refine ⟨fun h => ?_, r3 (pow_ne_zero _ hx.bb_ne)⟩
    have := r2 (pow_ne_zero _ hx.bb_ne) h
    obtain ⟨n, hn⟩ := Int.eq_ofNat_of_zero_le h0
    rw [hn, Int.natAbs_natCast] at this
    rw [hn, zpow_natCast]
    unfold value at this ⊢; push_cast at this; rwa [← div_pow] at this
  · rw [abs_of_neg h0] at hg
    obtain ⟨_, r2, r3⟩ := opPowR_red_neg ha hx h0 hg
    have ht : x.tt.val ≠ 0 := fun hz => hne (hx.tt_zero.mp hz)
    rw [show (-a.val).toNat = a.val.natAbs by omega] at r2 r3
    refine ⟨fun h => ?_, r3 (pow_ne_zero _ ht)⟩
    have := r2 (pow_ne_zero _ ht) h
    have e : x.value ^ a.val = ((x.bb.val ^ a.val.natAbs : Int) : ℚ) / ((x.tt.val ^ a.val.natAbs : Int) : ℚ) := by
      rw [show a.val = -(a.val.natAbs : Int) by omega, zpow_neg, zpow_natCast, Int.natAbs_neg, Int.natAbs_natCast]
      unfold value; push_cast; rw [div_pow, inv_div]
    rwa [e]
  · rw [abs_of_neg h0] at hg
    refine (opPowR_red_neg ha hx h0 hg).1 ?_
    rw [hx.tt_zero.mpr hz, zero_pow]
    omega
  · obtain ⟨h1, h2⟩ := powAssignU_red hx ha hg
    refine ⟨fun h => ?_, fun h => ?_⟩
    · obtain ⟨f, f1, f2, f3⟩ := h1 h
      refine ⟨f, by rw [f1]; rfl, f2, ?_⟩
      rw [f3, Int.abs_eq_natAbs, zpow_natCast]
      unfold value; push_cast; rw [div_pow]
    · obtain ⟨s, s1, _⟩ := h2 h
      rw [s1]; rfl

example := C128_powers (x := ⟨⟨[5], true⟩, ⟨[6], false⟩⟩) (a := ⟨[3], true⟩) (by decide) (by decide) (GoodExp.of_lt (by decide) (by decide))

/-- C128. `out_of_range` takes the place of the failed assertions, one for one. -/
theorem C128_throws_iff {x y : Frac} {a t b : BigInt} (hx : x.Valid) (hy : y.Valid) (ha : Canon a) (ht : Canon t) (hb : Canon b) (op : FOp) :
    (op.runR x y = .error .outOfRange ↔ op.run x y = .error .assertion) ∧
    (op.runIntR x a = .error .outOfRange ↔ op.runInt x a = .error .assertion) ∧
    (op.intRunR a x = .error .outOfRange ↔ op.intRun a x = .error .assertion) ∧
    (mkR t b = .error .outOfRange ↔ mk' t b = .error .assertion) ∧
    (reciprocalR x = .error .outOfRange ↔ reciprocal x = .error .assertion) :=
  ⟨red_same (op.run_red hx hy) (op.runR_red hx hy), red_same (op.runInt_red hx ha) (op.runIntR_red hx ha),
    red_same (op.intRun_red hx ha) (op.intRunR_red hx ha), red_same (red_mk' ht hb) (red_mkR ht hb),
    red_same (reciprocal_red hx) (reciprocalR_red hx)⟩

-- 1/10^18 + 1/10^18: the assertion of C06, or `out_of_range`; and a product of larger fractions
example : (let x : Frac := ⟨⟨[1], false⟩, ⟨[0, 0, 1], false⟩⟩
    x.Valid ∧ Frac.opAdd x x = .error .assertion ∧ Frac.opAddR x x = .error .outOfRange) ∧
    Frac.opMulR ⟨⟨[3, 1], true⟩, ⟨[7, 1], false⟩⟩ ⟨⟨[3], true⟩, ⟨[5, 1], false⟩⟩ =
      .ok ⟨⟨[3, 1], false⟩, ⟨[333333345, 333333337], false⟩⟩ := by decide +kernel

/-- C128. Construction from text, as C41. -/
theorem C128_string_constructor (s : List Char) :
    (s = [] → ∃ f, ofStringR s = .ok f ∧ f.Valid ∧ f.value = 0) ∧
    (∀ t b, s ≠ [] → RatioText s t b → b ≠ 0 → YieldsOrThrows (ofStringR s) ((t : ℚ) / b) t b) ∧
    ((∀ t b, RatioText s t b → b = 0) → ofStringR s = .error .invalidArgument) := by
  refine ⟨fun h => ?_, fun t b hs h h0 => ?_, fun h => ?_⟩
  · obtain ⟨f, f1, f2⟩ := (C41_string_constructor s).1 h
    exact ⟨f, ofString_keeps s f f1, f2⟩
  · obtain ⟨_, k2, k3⟩ := ofStringR_ratio h hs
    exact ⟨k2 h0, k3 h0⟩
  · by_cases hr : ∃ t b, RatioText s t b
    · obtain ⟨t, b, hr⟩ := hr
      have hs : s ≠ [] := by
        rintro rfl
        exact absurd (h 0 1 (.inl ⟨rfl, rfl, rfl⟩)) (by norm_num)
      exact (ofStringR_ratio hr hs).1 (h t b hr)
    · exact ofStringR_not_ratio (fun t b hz => hr ⟨t, b, hz⟩)

example := (C128_string_constructor "-10/4".toList).2.1 (-10) 4 (by decide)
  (.inr (.inr ⟨"-10".toList, "4".toList, rfl, ⟨"10".toList, ⟨by decide, by decide⟩, .inr ⟨rfl, by decide⟩⟩,
    ⟨"4".toList, ⟨by decide, by decide⟩, .inl ⟨rfl, by decide⟩⟩⟩)) (by decide)

/-- C128. Conversion from `double`, as C43: the printed digits, or `out_of_range`. -/
theorem C128_from_double {ip fp : List Char} {z : Int} (h : IntText (ip ++ fp) z) (hip : ∀ c ∈ ip, c ≠ '.') (h0 : 0 < fp.length)
    (h1 : fp.length ≤ 2147483647) :
    YieldsOrThrows (fromDoubleR true (ip ++ '.' :: fp)) ((z : ℚ) / 10 ^ fp.length) z (10 ^ fp.length) := by
  obtain ⟨_, r2, r3⟩ := fromDoubleR_red h hip h0 h1
  have hne : (10 : Int) ^ fp.length ≠ 0 := pow_ne_zero _ (by norm_num)
  refine ⟨fun ha => ?_, r3 hne⟩
  have := r2 hne ha
  push_cast at this
  exact this

example : ofStringR "-10/4".toList = .ok ⟨⟨[5], true⟩, ⟨[2], false⟩⟩ ∧ ofStringR "1/0".toList = .error .invalidArgument ∧
    ofStringR "1000000000000000000/1000000000000000000".toList = .error .outOfRange ∧
    fromDoubleR true "0.125000".toList = .ok ⟨⟨[1], false⟩, ⟨[8], false⟩⟩ := by decide +kernel

/-- C128. Extraction from a stream, as C42: text and stream as in a build with assertions; if the reduction throws, the text has been
consumed and the object is left unreduced (C129). -/
theorem C128_stream_success {pre rest : List Char} {t b : Int} (h : Body pre rest t b) (hb : b ≠ 0) (p : List Char) (f : Frac) :
    (¬ReduceAborts t b → ∃ g : Frac, g.Valid ∧ g.value = (t : ℚ) / b ∧
      readU (goodStream p (pre ++ rest)) f = .ok (⟨pre.reverse ++ p, rest, decide (rest = []), false, false⟩, g)) ∧
    (ReduceAborts t b → ∃ g : Frac, LeftUnreduced g t b ∧
      readU (goodStream p (pre ++ rest)) f = .error (.outOfRange, ⟨pre.reverse ++ p, rest, decide (rest = []), false, false⟩, g)) := by
  obtain ⟨r, r1, r2, r3, r4, r5⟩ := readRaw_plain (p := p) f h
  have he : rest.isEmpty = decide (rest = []) := by cases rest <;> rfl
  rw [he] at r1
  have hn := mred_normalizeU (t := r.tt) (b := r.bb) (.inl r2) r3 (by rw [r5]; exact hb)
  rw [r4, r5] at hn
  have e : readU (goodStream p (pre ++ rest)) f = _ := readU_of_raw rfl r1
  rw [e]
  refine ⟨fun ha => ?_, fun ha => ?_⟩
  · obtain ⟨g, g1, g2, g3⟩ := hn.1 ha
    exact ⟨g, g2, g3, by rw [show r = ⟨r.tt, r.bb⟩ from rfl, g1]⟩
  · obtain ⟨g, g1, _, g2⟩ := hn.2 ha
    exact ⟨g, g2, by rw [show r = ⟨r.tt, r.bb⟩ from rfl, g1]⟩

example := C128_stream_success (pre := "-10/4".toList) (rest := ") x".toList) (t := -10) (b := 4)
  (.inr ⟨"-10".toList, "4".toList, rfl, ⟨"10".toList, ⟨by decide, by decide⟩, .inr ⟨rfl, by decide⟩⟩,
    ⟨"4".toList, ⟨by decide, by decide⟩, .inl ⟨rfl, by decide⟩⟩, by intro c r hc; obtain ⟨rfl, _⟩ := List.cons.inj hc; decide⟩)
  (by decide) [] ⟨⟨[1], false⟩, ⟨[1], false⟩⟩

/-! ### C129: what an exception leaves behind -/

/-- C129 as stated is false: a compound assignment that throws has changed its left operand. `x += y` for `x = y = 1/10^18` leaves
2·10^18/10^36, which `==` tells apart from the 1/(5·10^17) it stands for; `x /= a` for `a = 10^18` leaves a fraction with denominator
zero; `x *= y` leaves zero although neither operand is zero; and dividing 10^27 + 2·10^18 + 6·10^9 + 12 by 10^18 + 6 leaves
(10^9 + 2)/6, which is neither the old value nor the quotient. -/
theorem C129_refuted :
    (let x : Frac := ⟨⟨[1], false⟩, ⟨[0, 0, 1], false⟩⟩
     let l : Frac := ⟨⟨[0, 0, 2], false⟩, ⟨[0, 0, 0, 0, 1], false⟩⟩
     x.Valid ∧ FOp.asgValU .add x x = .error (.outOfRange, l) ∧ l ≠ x ∧
     Frac.eq l ⟨⟨[1], false⟩, ⟨[0, 500000000], false⟩⟩ = .ok false) ∧
    (let x : Frac := ⟨⟨[0, 0, 1, 1, 1], false⟩, ⟨[1], false⟩⟩
     x.Valid ∧ FOp.asgIntU .div x ⟨[0, 0, 1], false⟩ = .error (.outOfRange, ⟨⟨[1, 1, 1], false⟩, ⟨[0], false⟩⟩)) ∧
    (let x : Frac := ⟨⟨[0, 0, 1], false⟩, ⟨[1], false⟩⟩
     let y : Frac := ⟨⟨[1], false⟩, ⟨[0, 0, 1, 1, 1], false⟩⟩
     x.Valid ∧ y.Valid ∧ FOp.asgValU .mul x y = .error (.outOfRange, ⟨⟨[0], false⟩, ⟨[0, 0, 1, 1, 1], false⟩⟩)) ∧
    FOp.asgIntU .div ⟨⟨[12, 6, 2, 1], false⟩, ⟨[1], false⟩⟩ ⟨[6, 0, 1], false⟩ = .error (.outOfRange, ⟨⟨[2, 1], false⟩, ⟨[6], false⟩⟩) := by
  decide +kernel

/-- C129, the part that holds, for operands in lowest terms: if a compound assignment that does not divide by zero throws, it throws
`out_of_range`, and what it leaves is known exactly: well-formed parts, either the whole unreduced result, or, if one of the unreduced
parts divides the other, that part has lost its digits from its highest zero bin on. If neither part divides the other, the variable
holds the value of the result.
Missing: that the variable is left unchanged (see `C129_refuted`). -/
theorem C129_leftover_partial {x y : Frac} {a : BigInt} (hx : x.Valid) (hy : y.Valid) (ha : Canon a) (op : FOp) (v : ℚ) (e : Err) (s : Frac) :
    (op.sem x.value y.value = some v → op.asgValU x y = .error (e, s) →
      e = .outOfRange ∧ s.PartsOK ∧ LeftUnreduced s (op.parts x.value y.value).1 (op.parts x.value y.value).2) ∧
    (op.sem x.value a.val = some v → op.asgIntU x a = .error (e, s) →
      e = .outOfRange ∧ s.PartsOK ∧ LeftUnreduced s (op.parts x.value a.val).1 (op.parts x.value a.val).2) ∧
    (GoodExp |a.val| → powAssignU x a = .error (e, s) →
      e = .outOfRange ∧ s.PartsOK ∧ LeftUnreduced s (x.tt.val ^ a.val.natAbs) (x.bb.val ^ a.val.natAbs)) ∧
    (∀ t b : Int, b ≠ 0 → ¬t ∣ b → ¬b ∣ t → LeftUnreduced s t b → s.value = (t : ℚ) / b) := by
  have left : ∀ {u : MRes Frac Frac} {t b : Int}, MRedU u t b → u = .error (e, s) → e = .outOfRange ∧ s.PartsOK ∧ LeftUnreduced s t b := by
    rintro u t b ⟨h1, h2⟩ hu
    by_cases hr : ReduceAborts t b
    · obtain ⟨s', s1, s2, s3⟩ := h2 hr
      rw [hu] at s1; cases s1
      exact ⟨rfl, s2, s3⟩
    · obtain ⟨f, f1, _⟩ := h1 hr
      rw [hu] at f1; cases f1
  have den : ∀ {p q : ℚ}, op.sem p q = some v → (op.parts p q).2 ≠ 0 := by
    intro p q h h0
    rw [FOp.sem_parts, if_pos h0] at h; cases h
  refine ⟨fun h => left (op.asgValU_red hx hy (den h)), fun h => left (op.asgIntU_red hx ha (den h)), fun hg => left (powAssignU_red hx ha hg), ?_⟩
  rintro t b h0 h1 h2 (⟨_, h3, h4⟩ | ⟨h3, _⟩ | ⟨h3, _⟩)
  · unfold value
    rw [h3, h4]
    rcases lt_or_gt_of_ne h0 with hb | hb
    · rw [Int.sign_eq_neg_one_of_neg hb, abs_of_neg hb]; push_cast; rw [neg_one_mul, neg_div_neg_eq]
    · rw [Int.sign_eq_one_of_pos hb, abs_of_pos hb, one_mul]
  · exact absurd h3 h1
  · exact absurd h3 h2

example := (C129_leftover_partial (x := ⟨⟨[1, 0, 1], false⟩, ⟨[7], false⟩⟩) (y := ⟨⟨[7], false⟩, ⟨[0, 0, 0, 0, 1], false⟩⟩) (a := ⟨[1], false⟩)
  (by decide) (by decide) (by decide) .mul _ .outOfRange ⟨⟨[7, 0, 7], false⟩, ⟨[0, 0, 0, 0, 7], false⟩⟩).1 rfl (by decide +kernel)

/-- C129. Only the left operand is affected, also by a call that throws, and also if both operands are the same variable. -/
theorem C129_only_target {m m' : FMem} {d s i : Nat} {e : Err} (op : FOp) (h : op.assignU m d s = .error (e, m')) (hi : i ≠ d) : m' i = m i := by
  rw [FOp.assignU_eq] at h
  unfold FMem.update at h
  split at h
  · cases h
  · cases h
    simp [FMem.set, hi]

-- (10^18 + 1)/7 * 7/10^36: the parts of the product are 7·(10^18 + 1) and 7·10^36
example : let x : Frac := ⟨⟨[1, 0, 1], false⟩, ⟨[7], false⟩⟩
    let y : Frac := ⟨⟨[7], false⟩, ⟨[0, 0, 0, 0, 1], false⟩⟩
    x.Valid ∧ y.Valid ∧ FOp.asgValU .mul x y = .error (.outOfRange, ⟨⟨[7, 0, 7], false⟩, ⟨[0, 0, 0, 0, 7], false⟩⟩) := by decide +kernel

/-! ### C130: going on after an exception -/

/-- C130. For fractions with well-formed parts and nonzero denominator, in lowest terms or not, such as an exception leaves them in a
variable, and for well-formed `Int`s: every operator gives exactly the rational result, in lowest terms, or throws `out_of_range`. A
compound assignment that throws leaves well-formed parts again. -/
theorem C130_operators {x y : Frac} {a : BigInt} (hx : x.PartsOK) (hx0 : x.bb.val ≠ 0) (hy : y.PartsOK) (hy0 : y.bb.val ≠ 0) (ha : WF a)
    (op : FOp) (v : ℚ) :
    (op.sem x.value y.value = some v → Frac.RightOrThrows (op.runR x y) v ∧ Frac.RightOrThrowsU (op.asgValU x y) v) ∧
    (op.sem x.value a.val = some v → Frac.RightOrThrows (op.runIntR x a) v ∧ Frac.RightOrThrowsU (op.asgIntU x a) v) ∧
    (op.sem a.val x.value = some v → Frac.RightOrThrows (op.intRunR a x) v) := by
  have ex : (x.bb.val : ℚ) ≠ 0 := by exact_mod_cast hx0
  have ey : (y.bb.val : ℚ) ≠ 0 := by exact_mod_cast hy0
  have hm : x.bb.val * y.bb.val ≠ 0 := mul_ne_zero hx0 hy0
  cases op
  · refine ⟨fun h => ?_, fun h => ?_, fun h => ?_⟩ <;> (simp only [FOp.sem, Option.some.injEq] at h; subst h)
    · exact ⟨madeR_right (opAddR_made hx hy) hm (by unfold value; push_cast; field_simp),
        madeU_right (addAssignU_made hx hy) hm (by unfold value; push_cast; field_simp)⟩
    · exact ⟨madeR_right (addIntR_made ha hx) hx0 (by unfold value; push_cast; field_simp),
        madeU_right (addAssignIntU_made hx ha) hx0 (by unfold value; push_cast; field_simp)⟩
    · exact madeR_right (intAddR_made ha hx) hx0 (by unfold value; push_cast; field_simp)
  · refine ⟨fun h => ?_, fun h => ?_, fun h => ?_⟩ <;> (simp only [FOp.sem, Option.some.injEq] at h; subst h)
    · exact ⟨madeR_right (opSubR_made hx hy) hm (by unfold value; push_cast; field_simp),
        madeU_right (subAssignU_made hx hy) hm (by unfold value; push_cast; field_simp)⟩
    · exact ⟨madeR_right (subIntR_made ha hx) hx0 (by unfold value; push_cast; field_simp),
        madeU_right (subAssignIntU_made hx ha) hx0 (by unfold value; push_cast; field_simp)⟩
    · exact madeR_right (intSubR_made ha hx) hx0 (by unfold value; push_cast; field_simp)
  · refine ⟨fun h => ?_, fun h => ?_, fun h => ?_⟩ <;> (simp only [FOp.sem, Option.some.injEq] at h; subst h)
    · exact ⟨madeR_right (opMulR_made hx hy) hm (by unfold value; push_cast; field_simp),
        madeU_right (mulAssignU_made hx hy) hm (by unfold value; push_cast; field_simp)⟩
    · exact ⟨madeR_right (intMulR_made ha hx) hx0 (by unfold value; push_cast; field_simp),
        madeU_right (mulAssignIntU_made hx ha) hx0 (by unfold value; push_cast; field_simp)⟩
    · exact madeR_right (intMulR_made ha hx) hx0 (by unfold value; push_cast; field_simp)
  · refine ⟨fun h => ?_, fun h => ?_, fun h => ?_⟩ <;> simp only [FOp.sem] at h <;> split at h <;> try cases h
    · next hz =>
      have ht : y.tt.val ≠ 0 := fun hh => hz (by simp [value, hh])
      have et : (y.tt.val : ℚ) ≠ 0 := by exact_mod_cast ht
      exact ⟨madeR_right (opDivR_made hx hy) (mul_ne_zero hx0 ht) (by unfold value; push_cast; field_simp),
        madeU_right (divAssignU_made hx hy) (mul_ne_zero hx0 ht) (by unfold value; push_cast; field_simp)⟩
    · next hz =>
      have ht : a.val ≠ 0 := by exact_mod_cast hz
      exact ⟨madeR_right (divIntR_made ha hx) (mul_ne_zero hx0 ht) (by unfold value; push_cast; field_simp),
        madeU_right (divAssignIntU_made hx ha) (mul_ne_zero hx0 ht) (by unfold value; push_cast; field_simp)⟩
    · next hz =>
      have ht : x.tt.val ≠ 0 := fun hh => hz (by simp [value, hh])
      have et : (x.tt.val : ℚ) ≠ 0 := by exact_mod_cast ht
      exact madeR_right (intDivR_made ha hx) ht (by unfold value; push_cast; field_simp)

/-- 1000000002/6 and 0/3 are not in lowest terms. -/
example := C130_operators (x := ⟨⟨[2, 1], false⟩, ⟨[6], false⟩⟩) (y := ⟨⟨[0], false⟩, ⟨[3], false⟩⟩) (a := ⟨[3], true⟩) (by decide) (by decide)
  (by decide) (by decide) (by decide) .sub

/-- C130. Powers of such fractions, for the exponents for which the power of an `Int` is right. -/
theorem C130_powers {x : Frac} {a : BigInt} (hx : x.PartsOK) (hx0 : x.bb.val ≠ 0) (ha : Canon a) (hg : GoodExp |a.val|) :
    (0 ≤ a.val → Frac.RightOrThrows (opPowR x a) (x.value ^ a.val)) ∧
    (a.val < 0 → x.value ≠ 0 → Frac.RightOrThrows (opPowR x a) (x.value ^ a.val)) ∧
    (a.val < 0 → x.value = 0 → opPowR x a = .error .divideByZero ∨ opPowR x a = .error .outOfRange) ∧
    Frac.RightOrThrowsU (powAssignU x a) (x.value ^ |a.val|) := by
  have h := opPowR_made ha hx hg
  refine ⟨fun h0 => ?_, fun h0 hne => ?_, fun h0 hz => ?_, ?_⟩
  · rw [if_neg (by omega), if_neg (by omega)] at h
    refine madeR_right h (pow_ne_zero _ hx0) ?_
    rw [show a.val = (a.val.natAbs : Int) by omega, zpow_natCast, Int.natAbs_natCast]
    unfold value; push_cast; rw [div_pow]
  · rw [if_pos h0, if_pos h0] at h
    refine madeR_right h (pow_ne_zero _ fun hh => hne (by simp [value, hh])) ?_
    rw [show a.val = -(a.val.natAbs : Int) by omega, zpow_neg, zpow_natCast, Int.natAbs_neg, Int.natAbs_natCast]
    unfold value; push_cast; rw [div_pow, inv_div]
  · rw [if_pos h0, if_pos h0] at h
    refine madeR_zero h ?_
    have ht : x.tt.val = 0 := by
      have ex : (x.bb.val : ℚ) ≠ 0 := by exact_mod_cast hx0
      unfold value at hz
      rcases div_eq_zero_iff.mp hz with h | h
      · exact_mod_cast h
      · exact absurd h ex
    rw [ht, zero_pow]; omega
  · refine madeU_right (powAssignU_made hx ha hg) (pow_ne_zero _ hx0) ?_
    rw [Int.abs_eq_natAbs, zpow_natCast]
    unfold value; push_cast; rw [div_pow]

example := C130_powers (x := ⟨⟨[2, 1], false⟩, ⟨[6], false⟩⟩) (a := ⟨[3], true⟩) (by decide) (by decide) (by decide) (GoodExp.of_lt (by decide) (by decide))

/-- C130. Also with a denominator zero an operator that returns a new object returns a fraction in lowest terms or throws
`divide_by_zero_error` or `out_of_range`: zero denominators do not spread. -/
theorem C130_zero_denominators {x y : Frac} {a : BigInt} (hx : x.PartsOK) (hy : y.PartsOK) (ha : WF a) (op : FOp) :
    let good := fun r : Res Frac => (∃ f, r = .ok f ∧ f.Valid) ∨ r = .error .divideByZero ∨ r = .error .outOfRange
    good (op.runR x y) ∧ good (op.runIntR x a) ∧ good (op.intRunR a x) := by
  have key : ∀ {r : Res Frac} {t b : Int}, MadeR r t b →
      (∃ f, r = .ok f ∧ f.Valid) ∨ r = .error .divideByZero ∨ r = .error .outOfRange := by
    rintro r t b (h | ⟨h1, h2⟩)
    · exact .inr (.inr h)
    · by_cases h0 : b = 0
      · exact .inr (.inl (h1 h0))
      · rcases h2 h0 with ⟨f, f1, f2, _⟩ | h
        · exact .inl ⟨f, f1, f2⟩
        · exact .inr (.inr h)
  cases op
  · exact ⟨key (opAddR_made hx hy), key (addIntR_made ha hx), key (intAddR_made ha hx)⟩
  · exact ⟨key (opSubR_made hx hy), key (subIntR_made ha hx), key (intSubR_made ha hx)⟩
  · exact ⟨key (opMulR_made hx hy), key (intMulR_made ha hx), key (intMulR_made ha hx)⟩
  · exact ⟨key (opDivR_made hx hy), key (divIntR_made ha hx), key (intDivR_made ha hx)⟩

example := C130_zero_denominators (x := ⟨⟨[1], false⟩, ⟨[0], false⟩⟩) (y := ⟨⟨[0], false⟩, ⟨[0], false⟩⟩) (a := ⟨[3], true⟩) (by decide) (by decide)
  (by decide) .add

/-- C130. The orders compare such fractions by their values; `==` compares the parts, so it can only err by saying "different". -/
theorem C130_comparisons {x y : Frac} (hx : x.PartsOK) (hx0 : x.bb.val ≠ 0) (hy : y.PartsOK) (hy0 : y.bb.val ≠ 0) :
    ltR x y = .ok (decide (x.value < y.value)) ∧ gtR x y = .ok (decide (y.value < x.value)) ∧
    leR x y = .ok (decide (x.value ≤ y.value)) ∧ geR x y = .ok (decide (y.value ≤ x.value)) ∧
    (∃ b, Frac.eq x y = .ok b ∧ (b = true → x.value = y.value)) := by
  refine ⟨ltR_right hx hy hx0 hy0, ltR_right hy hx hy0 hx0, ?_, ?_, _, eq_parts hx hy, fun h => ?_⟩
  · unfold leR; rw [ltR_right hy hx hy0 hx0]; simp [← not_lt]
  · unfold geR; rw [ltR_right hx hy hx0 hy0]; simp [← not_lt]
  · obtain ⟨h1, h2⟩ := of_decide_eq_true h
    unfold value; rw [h1, h2]

example := C130_comparisons (x := ⟨⟨[2, 1], false⟩, ⟨[6], false⟩⟩) (y := ⟨⟨[2], true⟩, ⟨[6], false⟩⟩) (by decide) (by decide) (by decide) (by decide)

/-- C130. A program that catches every exception at the statement that throws it, and goes on with whatever that has left, never aborts
and never has undefined behaviour, for every program, all start values and any number of steps: it ends, or it goes on. -/
theorem C130_programs {p : FProg} (hp : p.Legal) {m : FMem} (hm : ∀ i, (m i).PartsOK) (depth : Nat) :
    (∃ m', p.execR true depth m = .ok m' ∧ ∀ i, (m' i).PartsOK) ∨ p.execR true depth m = .error .diverge :=
  FProg.execR_parts depth hp hm

-- dividing (10^27 + 2·10^18 + 6·10^9 + 12)/1 by 10^18 + 6 throws and leaves (10^9 + 2)/6, with which the program can go on
example : let l : Frac := ⟨⟨[2, 1], false⟩, ⟨[6], false⟩⟩
    FOp.asgIntU .div ⟨⟨[12, 6, 2, 1], false⟩, ⟨[1], false⟩⟩ ⟨[6, 0, 1], false⟩ = .error (.outOfRange, l) ∧ l.PartsOK ∧ ¬l.Valid ∧
    Frac.addIntR l ⟨[3], false⟩ = .ok ⟨⟨[166666670], false⟩, ⟨[1], false⟩⟩ ∧
    FOp.asgIntU .mul l ⟨[5], true⟩ = .ok ⟨⟨[833333335], true⟩, ⟨[1], false⟩⟩ ∧ Frac.opPowR l ⟨[1], true⟩ = .ok ⟨⟨[1], false⟩, ⟨[166666667], false⟩⟩ ∧
    Frac.ltR l ⟨⟨[1], false⟩, ⟨[3], false⟩⟩ = .ok false := by decide +kernel

-- a division that throws, caught, and a sum with what it has left
example : ((FProg.seq (.stmt (.asg .div 0 1)) (.stmt (.asg .add 0 0))).execR true 5 fun i =>
    if i = 0 then ⟨⟨[12, 6, 2, 1], false⟩, ⟨[1], false⟩⟩ else ⟨⟨[6, 0, 1], false⟩, ⟨[1], false⟩⟩).map (· 0) =
    .ok ⟨⟨[333333334], false⟩, ⟨[1], false⟩⟩ := by decide +kernel

/-! ### C131: programs -/

/-- C131. Any program over `Frac` variables behaves without assertions as the same program over rational numbers: it ends with every
variable in lowest terms and equal to the rational number, it throws `out_of_range` exactly when a reduction of unreduced parts meets a
division of `Int`s that loses a bin, and it runs equally long. No claim is made after an in-place division by zero or an in-place power
with negative exponent, as in C47. -/
theorem C131_program_refinement {p : FProg} (hp : p.Legal) {m : FMem} (hm : ∀ i, (m i).Valid) (depth : Nat) :
    match p.sem depth (fun i => (m i).value) with
    | .done v => ∃ m', p.execR false depth m = .ok m' ∧ ∀ i, (m' i).Valid ∧ (m' i).value = v i
    | .abort => p.execR false depth m = .error .outOfRange
    | .timeout => p.execR false depth m = .error .diverge
    | .bad => True := by
  have h := FProg.execR_matches depth hp (m := m) hm
  change QMatchesR (p.execR false depth m) (p.sem depth m.vals) at h
  change match p.sem depth m.vals with
    | .done v => ∃ m', p.execR false depth m = .ok m' ∧ ∀ i, (m' i).Valid ∧ (m' i).value = v i
    | .abort => p.execR false depth m = .error .outOfRange
    | .timeout => p.execR false depth m = .error .diverge
    | .bad => True
  revert h
  cases p.sem depth m.vals with
  | bad => intro _; trivial
  | done v =>
    cases p.execR false depth m with
    | ok m' => exact fun h => ⟨m', rfl, fun i => ⟨h.1 i, congrFun h.2 i⟩⟩
    | error e => cases e <;> exact fun h => absurd h id
  | abort =>
    cases p.execR false depth m with
    | ok m' => exact fun h => absurd h id
    | error e => cases e <;> first | exact fun _ => rfl | exact fun h => absurd h id
  | timeout =>
    cases p.execR false depth m with
    | ok m' => exact fun h => absurd h id
    | error e => cases e <;> first | exact fun _ => rfl | exact fun h => absurd h id

-- 1 + 1/2 + 1/3 + 1/4 = 25/12
example : harmonic.Legal ∧ (harmonic.execR false 20 (fun i => if i = 2 then ⟨⟨[4], false⟩, ⟨[1], false⟩⟩ else
    ⟨⟨[0], false⟩, ⟨[1], false⟩⟩)).map (· 0) = .ok ⟨⟨[25], false⟩, ⟨[12], false⟩⟩ :=
  ⟨by simp [harmonic, FProg.Legal, FStmt.Legal], by decide +kernel⟩

/-! ### C132: vectors and matrices -/

/-- C132. Every computation with vectors and matrices over `Int` or `Frac` that returns in a build with assertions returns the same
without them. -/
theorem C132_same_results {s : Ty} (e : Calc s) :
    (∀ (env : Vars BigInt) v, e.run .int env = .ok v → e.run .intR env = .ok v) ∧
    (∀ (env : Vars Frac) v, e.run .frac env = .ok v → e.run .fracR env = .ok v) := by
  refine ⟨fun env v h => ?_, fun env v h => ?_⟩
  · have key := Calc.run_fol simCore_intR e (fun _ => simMulA_intR) (fun _ => simDiv_intR) (fun _ => simNeg_intR) env env (fun t x => Ty.Rel.refl t _)
    rw [h] at key
    obtain ⟨w, h1, h2⟩ := key.out.never
    rw [h1, Ty.Rel.eq h2]
  · have key := Calc.run_fol simCore_fracR e (fun _ => simMulA_fracR) (fun _ => simDiv_fracR) (fun _ => simNeg_fracR) env env (fun t x => Ty.Rel.refl t _)
    rw [h] at key
    obtain ⟨w, h1, h2⟩ := key.out.never
    rw [h1, Ty.Rel.eq h2]

example := (C132_same_results (.matDet (.var .mat 0))).1 (fun t _ => match t with
  | .num => ⟨[0], false⟩
  | .vec => []
  | .mat => ⟨3, 3, [2, 4, 6, 1, 5, 3, 3, 0, 10].map fun k : Int => some ⟨[k], false⟩⟩
  | .bool => false) ⟨[6], false⟩ (by decide +kernel)

/-- C132 for `Frac`, as C107: every computation that does not divide by zero over the rational numbers gives these rational numbers in
lowest terms, or throws the same exception, or throws `out_of_range`. -/
theorem C132_Frac {s : Ty} (e : Calc s) (hn : e.negates = false) {env : Vars ℚ} {env' : Vars Frac}
    (henv : ∀ (t : Ty) x, t.Rel (fun q f => FracRel f q) (env t x) (env' t x)) :
    e.run (Scalar.field ℚ) env = .error .divideByZero ∨ e.run .fracR env' = .error .outOfRange ∨
    (∃ v v', e.run (Scalar.field ℚ) env = .ok v ∧ e.run .fracR env' = .ok v' ∧ s.Rel (fun q f => FracRel f q) v v') ∨
    (∃ err, e.run (Scalar.field ℚ) env = .error err ∧ e.run .fracR env' = .error err) := by
  rcases (Calc.run_fol (simCore_exact exactRing_fracR) e (fun _ => simMulA_exact exactMulA_fracR)
    (fun _ => simDiv_exact exactDiv_fracR exactDivA_fracR) (fun h => by rw [hn] at h; cases h) env env' henv).cases with
    ⟨e, h, rfl⟩ | ⟨e, h, rfl⟩ | h | h
  · exact .inl h
  · exact .inr (.inl h)
  · exact .inr (.inr (.inl h))
  · exact .inr (.inr (.inr h))

example := C132_Frac (.matMul (.var .mat 0) (.var .mat 0)) rfl
  (env := fun t _ => match t with
    | .num => 0
    | .vec => [1 / 2]
    | .mat => ⟨1, 1, [some (1 / 2)]⟩
    | .bool => false)
  (env' := fun t _ => match t with
    | .num => Ex.zero
    | .vec => [Ex.half]
    | .mat => ⟨1, 1, [some Ex.half]⟩
    | .bool => false)
  (fun t _ => by
    cases t with
    | num => exact Ex.zero_rel
    | vec => exact .cons Ex.half_rel .nil
    | mat => exact ⟨rfl, rfl, .cons Ex.half_rel .nil⟩
    | bool => rfl)

/-- C132 for `Int`: the cofactor expansions of matrices with at least one row return the exact determinant, also without assertions. -/
theorem C132_cofactor {a : Mat BigInt} {n : Nat} (hn : 1 ≤ n) {M : Matrix (Fin n) (Fin n) ℤ} (ha : Mat.Is IntRel a M) :
    (∃ d, Mat.rowCofactor .intR a = .ok d ∧ BigInt.Canon d ∧ d.val = M.det) ∧
    (∃ d, Mat.colCofactor .intR a = .ok d ∧ BigInt.Canon d ∧ d.val = M.det) := by
  obtain ⟨h1, h2⟩ := C65_determinant exactRing_intR hn ha
  exact ⟨h1.never, h2.never⟩

example := C132_cofactor (by decide) Ex.z_is

/-- C132 for `Int`: if `M` has a factorisation without fractions (C84), `determinant()` is exact or throws `out_of_range`. -/
theorem C132_fraction_free {n : Nat} {a : Mat BigInt} {M : Matrix (Fin n) (Fin n) ℤ} (ha : Mat.Is IntWFRel a M)
    {L U : Matrix (Fin n) (Fin n) ℚ} (hLU : M.map (fun z => (z : ℚ)) = L * U) (hL : ∀ i j, i < j → L i j = 0) (hL1 : ∀ i, L i i = 1)
    (hU : ∀ i j, j < i → U i j = 0) (hne : ∀ i : Fin n, i.val + 1 < n → U i i ≠ 0) (hW : ∀ i k j, ∃ z : ℤ, L i k * U k j = z) :
    (∃ t, Mat.determinant .intR a = .ok t ∧ BigInt.WF t ∧ t.val = M.det) ∨ Mat.determinant .intR a = .error .outOfRange := by
  rcases C84_fraction_free_partial exactRing_intWFR exactMulA_intWFR exactWhole_intWFR ha hLU hL hL1 hU hne hW with h | ⟨_, h, rfl⟩
  · exact .inl h
  · exact .inr h

/-- C132 for `Int`: elimination on any well-formed entries ends with a matrix of well-formed entries or with `divide_by_zero_error`,
`out_of_range` or, for `inverse()`, `domain_error`; it never has undefined behaviour. -/
theorem C132_no_ub {r c n : Nat} {a m : Mat BigInt} (ha : Mat.All WF r c a) (hm : Mat.All WF n n m) :
    Out IntThrows (Mat.rref .intR a) (Mat.All WF r c) ∧ Out IntThrows (Mat.inplaceRref .intR a) (Mat.All WF r c) ∧
    Out IntThrows (Mat.determinant .intR m) WF ∧ Out (OrDomain IntThrows) (Mat.inverse .intR m) (Mat.All WF n n) := by
  obtain ⟨h1, h2, h3, _, _, _, h4⟩ := C101_elimination closed_intR ha hm
  exact ⟨h1, h2, h3, h4⟩

-- the determinant of (2 4 6; 1 5 3; 3 0 10) is 6; a division in the elimination of (10^18 0 0; 5·10^18 1 0; 0 0 1) throws
example : let i : Nat → Option BigInt := fun k => some ⟨[k], false⟩
    Mat.determinant .intR ⟨3, 3, [i 2, i 4, i 6, i 1, i 5, i 3, i 3, i 0, i 10]⟩ = .ok ⟨[6], false⟩ ∧
    Mat.colCofactor .intR ⟨2, 2, [i 2, i 4, i 6, some ⟨[0, 1], false⟩]⟩ = .ok ⟨[999999976, 1], false⟩ ∧
    Mat.determinant .intR ⟨3, 3, [some ⟨[0, 0, 1], false⟩, i 0, i 0, some ⟨[0, 0, 5], false⟩, i 1, i 0, i 0, i 0, i 1]⟩ = .error .outOfRange ∧
    Mat.determinant .int ⟨3, 3, [some ⟨[0, 0, 1], false⟩, i 0, i 0, some ⟨[0, 0, 5], false⟩, i 1, i 0, i 0, i 0, i 1]⟩ = .error .assertion := by
  decide +kernel

-- 1/2 * 2/3 + 3/4 * -5/6 = -7/24
example : Vec.dot .fracR [⟨⟨[1], false⟩, ⟨[2], false⟩⟩, ⟨⟨[3], false⟩, ⟨[4], false⟩⟩]
      [⟨⟨[2], false⟩, ⟨[3], false⟩⟩, ⟨⟨[5], true⟩, ⟨[6], false⟩⟩] = .ok ⟨⟨[7], true⟩, ⟨[24], false⟩⟩ ∧
    Vec.add .fracR [⟨⟨[1], false⟩, ⟨[0, 0, 1], false⟩⟩] [⟨⟨[1], false⟩, ⟨[0, 0, 1], false⟩⟩] = .error .outOfRange := by
  decide +kernel

end CppMaths

