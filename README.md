Machine-checked Lean 4 model of dnaka91/mabo.

* `properties.jsonl` – the properties, in English (generated by `tools/gen_props.py`)
* `DESIGN.md` – trusted base, what is modelled, plan per property, where the code disagrees
* `MANIFEST.json` – theorem names per property (generated by `tools/gen_manifest.py`); `AXIOMS.txt` – their axioms
* `lean/Verif/Props/*` – the theorems; `lean/Verif/Spec/*` – the specifications they use
* `seeded/` – wrong programs the theorems were tested against (`LOG.jsonl`)

Build: `cd lean && lake build`.
