# Checking the model against the project's own test data

`gen.py` turns every case of /repo/xsd/tests (schema, example document) into Lean terms and writes a file that runs the
model on them with `#eval`: parse the schema, generate, read the document, write it again. It lies outside the Lake project,
proves nothing, and only checks that the model says what upstream's tests say the code does.

    cd validation && python3 gen.py && cd ../lean && lake env lean /tmp/T.lean

Result: for all 49 cases the document read and written again is the expected one, and the generated type names are the ones
of the expected output. (`all` writes its children in schema order, as upstream's test expects.)
The hypotheses of the content theorems were evaluated the same way: `generatesB` and `Deterministic` hold for all 49
schemas, `Faithful` for 48 (not for `element_ref_type`, whose top-level `zip` is an alias of a named simple type).
