## 6. Trusted base

* The Lean 4.33.0 kernel, and the definitions of Mathlib that occur in the statements (`ℤ`, `ℚ`, `ℝ`, `Matrix.det`, `Matrix.rank`, `Multiset`, `Finset.sum`, `Real.sqrt`).
* The axioms `propext`, `Classical.choice` and `Quot.sound`, and no others. `AXIOMS.md` lists them theorem by theorem (written by `tools/gen_axioms.py` from `#print axioms`).
  There is no `sorry`, no `admit`, no axiom of our own, no `native_decide` and no `bv_decide`. Concrete witnesses are evaluated with `decide +kernel`, which adds no axiom.
* That the model definitions say what the C++ says. This is a reading of the text, definition by definition, with file and lines in every comment; nothing checks it mechanically,
  since the C++ is neither built nor run.
* The statements of sections 1 and 3 about the C++ language, its library and IEEE 754.
