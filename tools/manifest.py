"""Write MANIFEST.json: collect the theorems named Cxx_... under lean/Verif/Props and add status and note."""
import json, pathlib, re

root = pathlib.Path(__file__).resolve().parent.parent
NOTES = json.loads((root / "tools" / "notes.json").read_text())

found = {}
for f in sorted((root / "lean/Verif/Props").glob("*.lean")):
    text = re.sub(r"/-.*?-/", "", f.read_text(), flags=re.S)
    for m in re.finditer(r"^theorem\s+(C\d\d+)_(\w+)", text, re.M):
        found.setdefault(m.group(1), []).append(f"Mjinx.Props.{m.group(1)}_{m.group(2)}")
claims = []
for line in (root / "properties.jsonl").read_text().splitlines():
    i = json.loads(line)["id"]
    if i in NOTES:
        status, note = NOTES[i]
        assert found.get(i) or status == "not_applicable", i
        claims.append({"property": i, "status": status, "theorems": found.get(i, []), "note": note})
    elif i in found:
        print("no note for", i)
(root / "MANIFEST.json").write_text(json.dumps({"claims": claims}, indent=1, ensure_ascii=False) + "\n")
print(len(claims), "claims")
