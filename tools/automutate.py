#!/usr/bin/env python3
"""Random seeded bugs.  usage: automutate.py out.jsonl per_def seed [files...]
Applies small textual edits to the definitions of lean/Verif/Model in a scratch copy, and builds the modules of Props that
depend on the edited file, nearest first, until one fails.  Definitions that seeded/LOG.jsonl or out.jsonl already name are
skipped.  Each line of out.jsonl: definition, file, edit, status (killed / survived), failed."""
import glob, json, os, random, re, subprocess, sys
S = os.environ.get("SCRATCH", "/tmp/auto")
SRC = "/verif/lean"
OPS = [(" < ", " ≤ "), (" ≤ ", " < "), (" > ", " ≥ "), (" ≥ ", " > "), (" == ", " != "), (" != ", " == "), (" && ", " || "), (" || ", " && "),
       (" ∧ ", " ∨ "), (" ∨ ", " ∧ "), ("true", "false"), ("false", "true"), (" + ", " - "), (" * ", " + "), (" - ", " + "), (" / ", " * "),
       (".keyError", ".valueError"), (".valueError", ".keyError"), (".find?", ".reverse.find?"), (".reverse", ""), (".fromTechnosphere", ".byproduct"),
       (".referenceProduct", ".byproduct"), (".byproduct", ".referenceProduct"), ("minimum", "maximum"), ("maximum", "minimum"), (".isSome", ".isNone"),
       (".isNone", ".isSome"), (".any ", ".all "), (".all ", ".any "), (".take ", ".drop "), (".drop ", ".take "), ("min ", "max "), ("max ", "min "),
       ("!", ""), (" = ", " ≠ "), (" ≠ ", " = "), ("if ", "if ¬ "), (".1", ".2"), (".2", ".1"), ("some ", "Function.const _ none "), (".toEnvironment", ".fromEnvironment"),
       (" else .ok ", " else .error .valueError; .ok "), ("mapE", "mapE (fun x => x) <$> mapE"), (".map ", ".tail.map "), (".filter ", ".tail.filter "), (" ++ ", " ++ [] ++ List.reverse <| "),
       (".getD ", ".elim 0 id |>.getD "), ("head?", "getLast?"), ("getLast?", "head?"), (".length", ".length.succ"), ("name", "location"), ("location", "name"), (".dedup", "")]
def defs(text):
    lines = text.split("\n")
    starts = [i for i, l in enumerate(lines) if re.match(r"(?:@\[.*?\] )?(?:noncomputable )?def ", l)]
    for i in starts:
        j = i + 1
        while j < len(lines) and lines[j].startswith((" ", "\t")): j += 1
        name = re.match(r".*?def ([\w.'?!]+)", lines[i]).group(1)
        off = sum(len(l) + 1 for l in lines[:i])
        body = "\n".join(lines[i:j])
        k = body.find(":=") if ":=" in body else body.find("\n")
        yield name, off + max(k, 0), off + len(body)
def candidates(text, a, b):
    body = text[a:b]
    out = []
    for old, new in OPS:
        for m in re.finditer(re.escape(old), body):
            if old[0].isalpha() and m.start() and (body[m.start() - 1].isalnum() or body[m.start() - 1] == "_"): continue
            out.append((a + m.start(), old, new))
    for m in re.finditer(r"(?<![\w.])\d+(?![\w.])", body): out.append((a + m.start(), m.group(0), str(int(m.group(0)) + 1)))
    for m in re.finditer(r'"([^"\n]+)"', body): out.append((a + m.start(), m.group(0), '"' + m.group(1) + 'x"'))
    return out
IMPORTS = {}
def imports(mod):
    if mod not in IMPORTS:
        p = f"{SRC}/{mod.replace('.', '/')}.lean"
        direct = re.findall(r"^import (Verif\.\S+)", open(p, encoding="utf8").read(), re.M)
        s = set(direct)
        for d in direct: s |= imports(d)
        IMPORTS[mod] = s
    return IMPORTS[mod]
def dependents(mod):
    props = ["Verif.Props." + os.path.basename(f)[:-5] for f in glob.glob(SRC + "/Verif/Props/*.lean")]
    l = [p for p in props if mod in imports(p)]
    return sorted(l, key=lambda p: len(imports(p)))
def enclosing(path, line):
    name = "?"
    for i, l in enumerate(open(path, encoding="utf8"), 1):
        m = re.match(r"(?:@\[.*?\] )?(?:private )?(theorem|def|instance|example|lemma)\s*([\w.']*)", l)
        if m: name = (m.group(2) or m.group(1)) if m.group(1) != "example" else "example@%d" % i
        if i >= line: break
    return name
def build(target):
    r = subprocess.run(["nice", "lake", "build", target], cwd=S, capture_output=True, text=True)
    out = r.stdout + r.stderr
    failed = []
    for f, l in re.findall(r"error: (Verif/[\w/]+\.lean):(\d+):", out):
        k = f[6:-5] + ":" + enclosing(f"{S}/{f}", int(l))
        if k not in failed: failed.append(k)
    return r.returncode == 0, failed
def main():
    outp, per, seed = sys.argv[1], int(sys.argv[2]), int(sys.argv[3])
    files = sys.argv[4:] or sorted(os.path.basename(f) for f in glob.glob(SRC + "/Verif/Model/*.lean"))
    subprocess.run(f"mkdir -p {S} && cp -a -u {SRC}/. {S}/", shell=True, check=True)
    rnd = random.Random(seed)
    done = {json.loads(l)["definition"] for l in open("/verif/seeded/LOG.jsonl")}
    if os.path.exists(outp): done |= {json.loads(l)["definition"] for l in open(outp)}
    for f in files:
        orig = open(f"{SRC}/Verif/Model/{f}", encoding="utf8").read()
        mod = "Verif.Model." + f[:-5]
        deps = dependents(mod)
        for name, a, b in defs(orig):
            if name in done: continue
            c = candidates(orig, a, b)
            rnd.shuffle(c)
            n = 0
            for pos, old, new in c[:8]:
                if n >= per: break
                text = orig[:pos] + new + orig[pos + len(old):]
                open(f"{S}/Verif/Model/{f}", "w", encoding="utf8").write(text)
                ok, _ = build(mod)
                if not ok: continue
                n += 1
                line = orig.count("\n", 0, pos)
                edit = f"line '{orig.split(chr(10))[line].strip()}' became '{text.split(chr(10))[line].strip()}'"
                status, failed = "survived", []
                for d in deps:
                    ok, failed = build(d)
                    if not ok: status = "killed"; break
                with open(outp, "a") as g: g.write(json.dumps({"definition": name, "file": "Model/" + f, "edit": edit, "status": status, "failed": failed}, ensure_ascii=False) + "\n")
        open(f"{S}/Verif/Model/{f}", "w", encoding="utf8").write(orig)
if __name__ == "__main__": main()
