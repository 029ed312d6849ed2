#!/usr/bin/env python3
"""Seeded-bug harness.  usage: mutate.py muts.json
Each entry: {"file": "Model/Utils.lean", "def": name, "old": text, "new": text, "edit": words, "claim": words,
             "targets": [modules, optional]}.
Works in a scratch copy (/tmp/s), rebuilds, records which theorems no longer check, appends a line to
/verif/seeded/LOG.jsonl (unless the edit does not parse: then it is reported as INVALID)."""
import json, os, re, shutil, subprocess, sys
S = os.environ.get("SCRATCH", "/tmp/s")
SRC = "/verif/lean"
def sync():
    os.makedirs(S, exist_ok=True)
    subprocess.run(["rsync", "-a", "--delete", SRC + "/", S + "/"], check=True) if shutil.which("rsync") else \
        subprocess.run(f"rm -rf {S} && cp -a {SRC} {S}", shell=True, check=True)
def enclosing(path, line):
    name = "?"
    for i, l in enumerate(open(path, encoding="utf8"), 1):
        m = re.match(r"(?:@\[.*?\] )?(?:private )?(theorem|def|instance|example|lemma)\s*([\w.']*)", l)
        if m: name = (m.group(2) or m.group(1)) if m.group(1) != "example" else "example@%d" % i
        if i >= line: break
    return name
def run(m):
    p = f"{S}/Verif/{m['file']}"
    orig = open(f"{SRC}/Verif/{m['file']}", encoding="utf8").read()
    if orig.count(m["old"]) < 1: return print("NOT FOUND", m["def"], m["old"])
    if orig.count(m["old"]) > 1 and not m.get("all"): return print("AMBIGUOUS", m["def"], m["old"])
    open(p, "w", encoding="utf8").write(orig.replace(m["old"], m["new"]))
    r = subprocess.run(["lake", "build"] + m.get("targets", ["Verif"]), cwd=S, capture_output=True, text=True)
    out = r.stdout + r.stderr
    failed, seen = [], set()
    for f, l in re.findall(r"error: (Verif/[\w/]+\.lean):(\d+):", out):
        n = enclosing(f"{S}/{f}", int(l))
        key = f[6:-5] + ":" + n
        if key not in seen: seen.add(key); failed.append(key)
    open(p, "w", encoding="utf8").write(orig)
    invalid = any(k.startswith("Model/") for k in failed)
    ok = r.returncode == 0
    rec = {"definition": m["def"], "file": m["file"], "edit": m["edit"], "claim_broken": m["claim"],
           "theorems_failed": failed, "theorems_tightened": m.get("tightened", [])}
    print("INVALID" if invalid else ("SURVIVED" if ok else "killed"), m["def"], "|", m["edit"], "|", failed)
    if invalid: print(out[-1500:])
    if not invalid:
        if ok: rec["survived"] = True
        if not os.environ.get("DRY"):
            with open("/verif/seeded/LOG.jsonl", "a") as f: f.write(json.dumps(rec, ensure_ascii=False) + "\n")
    sys.stdout.flush()
sync()
for m in json.load(open(sys.argv[1])): run(m)
