## Where the code violates the property

(Filled in as the proofs proceed; each entry has a machine-checked witness theorem.)

## Not modelled

`classicML/benchmarks`, `classicML/datasets`, `classicML/plots`, the logger, build scripts, and the parts of the
C++ backend not named above.
