#!/usr/bin/env python3
"""Regenerates lean/Verif.lean and MANIFEST.json from the theorem names `Cxx_*` in lean/Verif/Props
and the status table tools/status.json ({"C01": ["proved", "note"], ...})."""
import glob, json, os, re
root = os.path.dirname(os.path.dirname(os.path.abspath(__file__)))
mods = sorted(p[len(root) + 6:-5].replace("/", ".") for p in
              glob.glob(root + "/lean/Verif/**/*.lean", recursive=True))
open(root + "/lean/Verif.lean", "w").write("".join(f"import {m}\n" for m in mods))
thms = {}
for p in sorted(glob.glob(root + "/lean/Verif/Props/**/*.lean", recursive=True)):
    ns = []
    for line in open(p):
        m = re.match(r"namespace (\S+)", line)
        if m: ns.append(m.group(1))
        m = re.match(r"end (\S+)", line)
        if m and ns and ns[-1] == m.group(1): ns.pop()
        m = re.match(r"(?:@\[[^\]]*\] )?theorem (C(\d\d)_\S+)", line)
        if m:
            thms.setdefault("C" + m.group(2), []).append(".".join(ns + [m.group(1)]))
status = json.load(open(root + "/tools/status.json"))
props = [json.loads(l)["id"] for l in open(root + "/properties.jsonl") if l.strip()]
claims = []
for c in props:
    t = thms.get(c, [])
    st, note = status.get(c, ["partial", "not yet proved: model in progress"])
    if not t and st != "not_applicable":
        st, note = "partial", "not yet proved: model in progress"
    claims.append({"property": c, "status": st, "theorems": t, "note": note})
json.dump({"claims": claims}, open(root + "/MANIFEST.json", "w"), indent=1)
print({s: sum(1 for c in claims if c["status"] == s) for s in ("proved", "partial", "not_applicable")},
      sum(len(t) for t in thms.values()), "theorems; without theorem:",
      [c["property"] for c in claims if not c["theorems"]])
