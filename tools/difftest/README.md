Comparison of the standard-library parts of the model with CPython 3.11 on random inputs. These
are tests, not proofs: they support the claim in DESIGN.md that the model of the standard library
is the standard library. Nothing from /repo is run.

* `args_floats.py SEED N` writes `args.in/.exp` (argparse with the program's four options) and
  `fl.in/.exp` (`"{:.2}".format((a / b) % 1)`, the tempo formula, `//`, `%`);
  `lake env lean --run` on a copy of `args_floats.lean.txt` named `.lean` compares them with
  `parseArgs`, `fractionText`, `bpmOf`, `Int.fdiv`, `Int.fmod`. 124000 cases each, no difference.
* `zip_json.py` likewise for `zipSingle` (`zipfile`, clock faked, years 1979 to 2200) and
  `Json.dump` (`json.dumps(.., indent="\t")`). No difference.
* `gzip_reads.py`: random `read`/`seek` sequences on whole, cut off and wrongly summed gzip files,
  against `FStream` (transcribed to Python). 30000 sequences, no difference.
* `faults.py gen N SEED` writes N random fault patterns as /tmp/dt/faults.lean and what CPython's
  `io` and `zipfile` do with them (raw writes that take a part, none or fail; buffer sizes; text
  and zip writing) as /tmp/dt/faults.exp; `lake env lean` on the former must print the latter.
  1800 cases, no difference.

The scripts use /tmp/diff and /tmp/dt.
