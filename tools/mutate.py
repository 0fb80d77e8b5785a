#!/usr/bin/env python3
"""Seeded-bug runs. Usage: mutate.py SCRATCH MUTATIONS.json [ids...]
SCRATCH is a copy of lean/ (with its .lake) outside /verif. Each mutation replaces one piece of text in one
model file, rebuilds, and appends a line to seeded/LOG.jsonl naming the theorems that fail."""
import json, re, subprocess, sys, pathlib, shutil, os
root = pathlib.Path(__file__).resolve().parent.parent
scratch = pathlib.Path(sys.argv[1]); muts = json.load(open(sys.argv[2])); ids = set(sys.argv[3:])
base = pathlib.Path(os.environ.get("MUT_BASE", str(root / "lean")))
log = root / "seeded/LOG.jsonl"
done = set()
if log.exists():
    for l in log.read_text().splitlines():
        if l.strip(): done.add(json.loads(l)["id"])
def thm_at(path, line):
    name = "?"
    for i, l in enumerate(path.read_text().splitlines(), 1):
        m = re.match(r"^(?:@\[[^\]]*\]\s*)?(?:private )?(theorem|lemma|def|example)\s*([\w.']*)", l)
        if m: name = m.group(2) or f"example:{i}"
        if i >= line: break
    return name
for m in muts:
    if m["id"] in done or (ids and m["id"] not in ids): continue
    subprocess.run(["rsync", "-a", "--delete", str(base / "Verif") + "/", str(scratch / "Verif") + "/"], check=True) if shutil.which("rsync") else (
        shutil.rmtree(scratch / "Verif"), shutil.copytree(base / "Verif", scratch / "Verif"))
    shutil.copy(base / "Verif.lean", scratch / "Verif.lean")
    f = scratch / "Verif" / m["file"]
    s = f.read_text()
    if s.count(m["old"]) < 1: print(m["id"], "TEXT NOT FOUND", m["old"]); continue
    if s.count(m["old"]) > 1 and not m.get("all") and "after" not in m: print(m["id"], "TEXT NOT UNIQUE", s.count(m["old"])); continue
    if "after" in m:
        k = s.index(m["after"]); j = s.index(m["old"], k)
        s = s[:j] + m["new"] + s[j+len(m["old"]):]
    else: s = s.replace(m["old"], m["new"])
    f.write_text(s)
    r = subprocess.run(["lake", "build"] + m.get("targets", []), cwd=scratch, capture_output=True, text=True)
    out = r.stdout + r.stderr
    failed = {}
    for g in re.finditer(r"^error: (Verif/[\w/]+\.lean):(\d+):\d+:", out, re.M):
        failed.setdefault(g.group(1), []).append(thm_at(scratch / g.group(1), int(g.group(2))))
    fl = sorted({f"{k[6:-5]}: {n}" for k, v in failed.items() for n in v})
    props = set()
    # property files that could not be built because of the failures
    built = {p for p in (root / "lean/Verif/Props").glob("*.lean")}
    bad = set(failed)
    deps = {}
    for p in (scratch / "Verif").rglob("*.lean"):
        rel = "Verif/" + str(p.relative_to(scratch / "Verif"))
        deps[rel] = {i.replace(".", "/") + ".lean" for i in re.findall(r"^import (Verif[\w.]*)", p.read_text(), re.M)}
    chg = True
    while chg:
        chg = False
        for k, v in deps.items():
            if k not in bad and v & bad: bad.add(k); chg = True
    blocked = sorted(b[6:-5] for b in bad if "/Props/" in b and b not in failed)
    rec = {"id": m["id"], "definition": m["def"], "file": m["file"], "edit": m["edit"], "claim": m["claim"],
           "failed": fl, "blocked_property_files": blocked, "tightened": m.get("tightened", []), "note": m.get("note", "")}
    if not fl:
        print(m["id"], "SURVIVED", "(build ok)" if r.returncode == 0 else out[-600:])
        rec["note"] = (rec["note"] + " survived").strip()
        if not m.get("expect_survive"): continue
    else: print(m["id"], fl[:6], blocked)
    with open(log, "a") as h: h.write(json.dumps(rec) + "\n")
    sys.stdout.flush()
