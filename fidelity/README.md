# Comparing the model with recorded expectations

The code in `/repo` was not run. These scripts compare the model, evaluated by Lean, with what can be known without running it:

| scripts | compared with | result |
|---|---|---|
| `gen.py`, `gen.lean.txt` | CPython 3.11's own `float`, `int`, `str` methods and arithmetic, for the definitions in `lean/Verif/Py`, on a million random cases | equal, except 155 literals beyond the range of doubles (`inf` in Python; exponents are unbounded in the model, see `DESIGN.md`) |
| `w3c.py`, `w3c.lean.txt` | the 2448 documents and reference boxes in `/repo/tests/web_platform`, with the lists of those known to fail | all 2448 as recorded: 417 match their reference, 2031 raise or differ |
| `eng.py`, `eng.lean.txt` | the 39 tests in `/repo/tests/engine` (read with `ast`, not executed) | all as expected |
| `par.py`, `par.lean.txt` | the 164 calls with literal arguments in `/repo/tests/test_parser.py` | all as expected |
| `decl.py`, `decl.lean.txt` | 58 of the 65 tests in `/repo/tests/test_declaration.py`, run in order: assignments, deletions, exceptions, `dirty` and values (483 steps; the other 7 index the table of colours, ask for the engine or define classes of their own) | all as expected |
| `unit.py`, `unit.lean.txt` | the 250 conversions and comparisons in `/repo/tests/test_units.py` | all as expected |
| `dim.py`, `dim.lean.txt` | the 541 assertions in `/repo/tests/test_dimensions.py` on boxes, origins, `dirty` and intrinsic sizes | all as expected |
| `repr.py`, `repr.lean.txt` | `repr` of 4000 random floats (`Py/Repr`) | all equal |
| `strrepr.py`, `strrepr.lean.txt` | `repr` of 20000 random ASCII strings (`Model/Print`) | all equal |

To repeat one: `mkdir -p /root/diff; cd /root/diff; python3 /verif/fidelity/w3c.py` writes the cases to the current directory, and
`cp /verif/fidelity/w3c.lean.txt /tmp/w3c.lean; cd /verif/lean; lake env lean --run /tmp/w3c.lean` evaluates the model on them (the programs read
`/root/diff`; `gen` writes `cases`, `repr` is read from `/tmp/rp` and compared with `diff exp.txt out.txt`).

These are tests, not proofs. They say how far the model may be trusted to be a model of the code.
