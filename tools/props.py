#!/usr/bin/env python3
"""Single source for properties.jsonl, MANIFEST.json and the property table of DESIGN.md.

Run from anywhere:  python3 tools/props.py
Entries P(id, title, statement, quantifier, why, anchors, design) are in props_data.py, statuses in props_status.py.
"""
import json, os, re, sys
ROOT = os.path.dirname(os.path.dirname(os.path.abspath(__file__)))
PROPS = []
def P(id, title, statement, quantifier, why, anchors, design, status="partial", theorems=(), note=""):
    PROPS.append(dict(id=id, title=title, statement=statement, quantifier=quantifier, why=why,
                      anchors=list(anchors), design=design, status=status, theorems=list(theorems), note=note))

exec(open(os.path.join(ROOT, "tools", "props_data.py")).read())

def S(id, status, names, note=""):
    """Status of a property; names are theorem names inside namespace Verif.Props."""
    p = next(p for p in PROPS if p["id"] == id)
    p["status"], p["note"] = status, note
    p["theorems"] = ["Verif.Props." + n for n in names.split()]

exec(open(os.path.join(ROOT, "tools", "props_status.py")).read())

def lean_files(sub=""):
    out = []
    for d, _, fs in os.walk(os.path.join(ROOT, "lean", "Verif", sub)):
        out += [os.path.join(d, f) for f in fs if f.endswith(".lean")]
    return sorted(out)

def block(txt, name, body):
    new = "<!-- %s BEGIN -->\n%s\n<!-- %s END -->" % (name, body, name)
    return re.sub(r"<!-- %s BEGIN -->.*<!-- %s END -->" % (name, name), lambda m: new, txt, flags=re.S)

def generated(txt):
    """Findings, coverage and axioms sections of DESIGN.md."""
    rows = []
    for f in lean_files("Props"):
        for m in re.finditer(r"/--((?:(?!-/).)*?)-/\s*theorem (\w+_violated)\b", open(f).read(), flags=re.S):
            rows.append((m.group(2), " ".join(m.group(1).split())))
    key = lambda r: [int(x) if x.isdigit() else x for x in re.split(r"(\d+)", r[0])]
    txt = block(txt, "FINDINGS", "\n".join("* `%s`: %s" % r for r in sorted(rows, key=key)))
    # which model file cites which source file
    cites = {}
    for f in lean_files("Model"):
        for m in re.finditer(r"([A-Za-z_0-9]+\.(?:cpp|h))\b", open(f).read()):
            cites.setdefault(m.group(1), set()).add(os.path.basename(f)[:-5])
    src = "/repo/src"
    if os.path.isdir(src):
        rows = []
        for d, _, fs in os.walk(src):
            for f in fs:
                if f.endswith((".cpp", ".h")):
                    rel = os.path.relpath(os.path.join(d, f), src)
                    if f.endswith(".h") and f not in cites and os.path.exists(os.path.join(d, f[:-2] + ".cpp")):
                        continue
                    rows.append((rel, ", ".join("`%s`" % c for c in sorted(cites.get(f, []))) or "not modelled"))
        txt = block(txt, "COVERAGE", "| source file | model file |\n|---|---|\n" +
                    "\n".join("| `%s` | %s |" % r for r in sorted(rows)))
    apath = os.path.join(ROOT, "tools", "axioms.txt")
    if os.path.exists(apath):
        groups = {}
        for m in re.finditer(r"'([\w.]+)' (?:depends on axioms: \[([^\]]*)\]|does not depend on any axioms)", open(apath).read()):
            ax = ", ".join(sorted(x.strip() for x in (m.group(2) or "").split(",") if x.strip())) or "no axioms"
            groups.setdefault(ax, []).append(m.group(1).split(".")[-1])
        txt = block(txt, "AXIOMS", "\n".join("* %s (%d): %s" % (ax, len(ts), ", ".join("`%s`" % t for t in ts))
                    for ax, ts in sorted(groups.items())))
    return txt

def main():
    ids = [p["id"] for p in PROPS]
    assert len(ids) == len(set(ids)), "duplicate id"
    with open(os.path.join(ROOT, "properties.jsonl"), "w") as f:
        for p in PROPS:
            f.write(json.dumps({"id": p["id"], "title": p["title"], "statement": p["statement"],
                "quantifier": p["quantifier"], "why_tests_cant": p["why"], "anchors": p["anchors"]}) + "\n")
    claims = []
    for p in PROPS:
        if not p["theorems"] and p["status"] != "not_applicable":
            continue
        claims.append({"property": p["id"], "status": p["status"], "theorems": p["theorems"], "note": p["note"]})
    with open(os.path.join(ROOT, "MANIFEST.json"), "w") as f:
        json.dump({"claims": claims}, f, indent=1)
        f.write("\n")
    # design table
    dpath = os.path.join(ROOT, "DESIGN.md")
    if os.path.exists(dpath):
        txt = open(dpath).read()
        rows = []
        for p in PROPS:
            rows.append("### %s %s\n\n*Plan.* %s\n" % (p["id"], p["title"], p["design"]))
            if p["theorems"]:
                rows.append("*Status:* %s. *Theorems:* %s.%s\n" % (
                    p["status"], ", ".join("`%s`" % t for t in p["theorems"]),
                    (" " + p["note"]) if p["note"] else ""))
        new = "<!-- PROPS BEGIN -->\n" + "\n".join(rows) + "<!-- PROPS END -->"
        txt = re.sub(r"<!-- PROPS BEGIN -->.*<!-- PROPS END -->", lambda m: new, txt, flags=re.S)
        open(dpath, "w").write(generated(txt))
    # theorem name check
    src = ""
    for d, _, fs in os.walk(os.path.join(ROOT, "lean", "Verif")):
        for fn in fs:
            if fn.endswith(".lean"):
                src += open(os.path.join(d, fn)).read()
    for p in PROPS:
        for t in p["theorems"]:
            short = t.split(".")[-1]
            if not re.search(r"theorem (?:[\w.]*\.)?%s\b" % re.escape(short), src):
                print("MISSING theorem", p["id"], t)
    print(len(PROPS), "properties;", sum(1 for p in PROPS if p["theorems"]), "with theorems")
main()
