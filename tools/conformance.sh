#!/bin/sh
# Run the model on the project's fixtures and unit-test literals; all rows take about 4 minutes.
python3 /verif/tools/rust_tests.py
cd /verif/lean && lake build Verif.Model.Defaults Verif.Model.Io >/dev/null
lake env lean --run Verif/Conformance.lean /repo/fixtures/tests "${1:-100000}" /verif/conformance/unit_tests.txt | tee /verif/conformance/report.txt
