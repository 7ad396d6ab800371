# Formal model of classicML in Lean 4: design

The source under study is `/repo` (Python, with an optional C++ backend). Nothing is
executed: every definition of the model carries a comment with the file and lines it was
read from. The Lean project is `/verif/lean`; the modules are

- `Verif/Prelude.lean` – Python exceptions as values, numpy list primitives (argmin, argmax, unique, ...);
- `Verif/Model/*.lean` – the model, one file per area of the code, function by function;
- `Verif/Spec/*.lean` – small independent specifications used by the statements, which do not mention the model;
- `Verif/Lemmas/*.lean` – helper lemmas and proofs;
- `Verif/Props/*.lean` – the property theorems only, named `Cxx_...`, with non-vacuity examples beside them.

## Trusted base

1. Lean 4.33.0's kernel. The only axioms used are `propext`, `Classical.choice` and `Quot.sound`
   (Lean's standard ones); no axiom is declared, no `native_decide`/`bv_decide` is used.
2. The reading of the Python/C++ source into the model. There is no mechanical link.
3. **Arithmetic.** Floating point numbers are modelled by exact arithmetic: any linearly ordered
   field (examples over the rationals), or the reals where `exp`, `log`, `sqrt` occur. Rounding, overflow,
   signed zeros and NaN propagation are not modelled, except where said (division by
   zero is an explicit branch; the float32 cast of tree thresholds is a parameter).
   `Spec/Rounding.lean` defines IEEE round-to-nearest-even in single and double precision (without overflow) and what is needed of
   any rounding; `Model/Rounded.lean` and the theorems from C275 on apply it after every operation to selected functions
   (scalers, softmax, sigmoid, sample weights, posterior probabilities, dividing points, steps of SMO, accuracies).
   All other models compute exactly.
   Functions that only compare and copy values are modelled over an arbitrary linear order,
   which is exact for non-NaN floats.
4. **Randomness.** Every call into `numpy.random` is a parameter of the model (a list of indices, a
   permutation); theorems quantify over all its values.
5. **External libraries.** numpy/pandas primitives are modelled by their documented behaviour in the versions
   `setup.py` admits (numpy 1.21 to 1.24, pandas 1.3.4 to 1.5.2; where versions differ the model's comment says which one)
   (`argmax`/`argmin` return the first optimum, `unique` sorts, `list.sort` and pandas orderings as cited);
   h5py, pickle, matplotlib, pandas parsing, the logger and the terminal are not modelled.
6. Exceptions are values of `Except PyErr`; log output is dropped.
