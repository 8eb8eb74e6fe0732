# Running the model on the project's own test cases

The theorems speak about the Lean model.  Whether the model is the program is a
matter of reading the C code.  These scripts give evidence for it: they run the
model (interpreted, nothing is compiled) on the inputs of the project's own
black-box tests and compare what it prints with the expected output that the
project recorded.  The C code is neither built nor run.  Nothing here is part of
a proof.

* `prep_cases.py`, `prep_sunny.py`: turn `/repo/test/*.txt` and
  `/repo/test/sunny-day` into case files under `/tmp/val/cases`.
* `runner.txt`: a Lean program which builds a `Machine` from the files of
  `/repo/test` and calls `Boxes.wholeProgram`.  The character data base comes from
  Python's `unicodedata`, the substitution of a replacement rule from Python's
  `re` (`sub.py`); both are parameters of the model.  It carries the suffix `.txt`
  because it is not part of the Lake project.
* `compare.py`: compares results, applying the output filter of the test case.

To repeat:

    python3 prep_cases.py            # or prep_sunny.py
    cp runner.txt /tmp/val/Run.lean
    cd /repo/test
    LEAN_PATH=$(cd /verif/lean && lake env printenv LEAN_PATH) \
        lean --run /tmp/val/Run.lean $(cat /tmp/val/names)
    python3 /verif/validation/compare.py

## Result

| tests | cases | agree |
|---|---|---|
| `/repo/test/NNN_*.txt` | 184 | 184 |
| `/repo/test/sunny-day` (72 designs; draw, mend and remove each) | 216 | 216 |

The text printed by `--help` (case 173) comes from `Boxes.usageLong`.  A case which expects an error counts as
agreeing if the model's run fails; messages on stderr are not modelled and are
left out of the comparison.
