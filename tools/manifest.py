"""Regenerate MANIFEST.json from the theorem names in lean/Verif/Props (Cnn_... belongs to property Cnn)."""
import json, re, pathlib
root = pathlib.Path(__file__).resolve().parent.parent
notes = json.load(open(root / "tools" / "notes.json"))   # id -> [status, note]
thms = {}
for f in sorted((root / "lean/Verif/Props").glob("*.lean")):
    ns = "Segpy.Props"
    for l in f.read_text().splitlines():
        m = re.match(r"theorem (C\d\d+)_(\S+)", l)
        if m:
            thms.setdefault(m.group(1), []).append(f"{ns}.{m.group(1)}_{m.group(2)}")
claims = []
for l in open(root / "properties.jsonl"):
    p = json.loads(l)
    i = p["id"]
    if i in thms:
        st, note = notes.get(i, ["proved", ""])
        claims.append({"property": i, "status": st, "theorems": thms[i], "note": note})
json.dump({"claims": claims}, open(root / "MANIFEST.json", "w"), indent=1)
missing = [json.loads(l)["id"] for l in open(root / "properties.jsonl") if json.loads(l)["id"] not in thms]
print(len(claims), "claims; without theorems:", missing)
