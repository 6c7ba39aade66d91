#!/usr/bin/env python3
"""Systematic mutation of the model definitions (complements the hand-written list of mutations.py).

For every definition of the given model files one-token or one-line edits are generated (sign, comparison,
sin/cos, index, dropped statement, exchanged names); a random valid one per definition and round is built in
the scratch copy /tmp/mut made by `mutate.py setup`.  Results go to /tmp/autores.jsonl.

usage: automut.py run ROUND file...   e.g. automut.py run 1 Lin Rotation
       automut.py report               survivors
       automut.py log                  append the caught ones to seeded/LOG.jsonl
"""
import json, os, random, re, sys
import mutate
from mutate import SCR, V, sh, deps, dependents, decl_at
RES = "/tmp/autores.jsonl"

def defs(text):
    """(name, start, end) of every definition body, comments excluded."""
    out = []
    ns = []
    for mm in re.finditer(r"^(?:namespace (\S+)|end (\S+)|((?:noncomputable )?def (\S+)))", text, re.M):
        if mm.group(1): ns.append(mm.group(1))
        elif mm.group(2):
            if ns and ns[-1] == mm.group(2): ns.pop()
        else:
            e = re.compile(r"^(/--|/-!|theorem|def|noncomputable|structure|inductive|end|namespace|section|variable|instance|example|@\[|mutual|open|abbrev|private|lemma)", re.M).search(text, mm.end())
            end = e.start() if e else len(text)
            out.append((".".join(ns + [mm.group(4)]), mm.start(), end))
    return out

def body_start(t):
    m = re.search(r":=|^\s*\|", t, re.M)
    return m.start() if m else 0

SWAPS = [(r" \+ ", " - "), (r" - ", " + "), (r"Real\.sin\b", "Real.cos"), (r"Real\.cos\b", "Real.sin"), (r" < ", " ≤ "), (r" ≤ ", " < "),
         (r"\bi\b", "j"), (r"\bj\b", "k"), (r"\bj\b", "i"), (r"(?<=[ (])0(?=[ )\n])", "1"), (r"(?<=[ (])1(?=[ )\n])", "0"), (r"(?<=[ (])2(?=[ )\n])", "1"),
         (r"(?<=[ (])3(?=[ )\n])", "2"), (r"\bm1\b", "m2"), (r" \* ", " + "), (r"\.row\b", ".col"), (r"\bst\b", "ct"), (r"(?<=[ (\[])-(?=[a-zA-Z(])", ""),
         (r"\bmin\b", "max"), (r"!", ""), (r"= 0\b", "≠ 0"), (r"\.left\b", ".right"), (r"\btrue\b", "false")]

def candidates(text, a, b):
    t = text[a:b]
    s0 = body_start(t)
    c = []
    for pat, rep in SWAPS:
        for mm in re.finditer(pat, t):
            if mm.start() < s0: continue
            ls = t.rfind("\n", 0, mm.start()) + 1
            le = t.find("\n", mm.end()); le = len(t) if le < 0 else le
            c.append((a + mm.start(), a + mm.end(), rep, "`%s` -> `%s` in `%s`" % (mm.group(0).strip(), rep.strip(), t[ls:le].strip())))
    for mm in re.finditer(r"^  +(?:let (\w+) ← \1\.[^\n]*|(?:\w+\.)?check\w*[^\n]*|Res\.require[^\n]*)\n", t, re.M):
        if mm.start() < s0: continue
        c.append((a + mm.start(), a + mm.end(), "", "statement `%s` dropped" % mm.group(0).strip()))
    return c

def run(rnd, files):
    man = json.load(open(V + "/MANIFEST.json"))["claims"]
    owner = {}
    for c in man:
        for t in c["theorems"]: owner.setdefault(t, []).append(c["property"])
    g, rev = deps()
    sh("cp -a %s.src/. %s/Verif/" % (SCR, SCR), "/tmp")
    done = {json.loads(l)["id"] for l in open(RES)} if os.path.exists(RES) else set()
    jobs = []
    for f in files:
        text = open("%s.src/Model/%s.lean" % (SCR, f)).read()
        for n, a, b in defs(text): jobs.append((f, n, a, b))
    random.Random(rnd).shuffle(jobs)
    if not os.path.exists(SCR + ".build"):
        sh("lake build", SCR)
        sh("cp -a %s/.lake/build %s.build" % (SCR, SCR), "/tmp")
    def restore(): sh("rm -rf %s/.lake/build; cp -a %s.build %s/.lake/build" % (SCR, SCR, SCR), "/tmp")
    restore()
    for f, n, a, b in jobs:
        mid = "A%s-%s-%s" % (rnd, f, n)
        if mid in done: continue
        p = "%s/Verif/Model/%s.lean" % (SCR, f)
        src = open("%s.src/Model/%s.lean" % (SCR, f)).read()
        cs = candidates(src, a, b)
        random.Random(mid).shuffle(cs)
        for (x, y, rep, desc) in cs[:6]:
            new = src[:x] + rep + src[y:]
            open(p, "w").write(new)
            try:
                out = sh("lake build Verif.Model.%s 2>&1" % f, SCR)
                if "Build completed successfully" not in out: continue
                out = sh("lake build 2>&1", SCR)
            finally:
                open(p, "w").write(src)
                restore()
            errs = set(re.findall(r"^error: (Verif/\S+?\.lean):(\d+):", out, re.M))
            failed = {decl_at(SCR + "/" + e, int(ln))[1] for e, ln in errs}
            priv = {q for q in g if q.startswith("_private.") and any(q.endswith("." + h) for h in failed)}
            aff = dependents(rev, failed | priv)
            thms = sorted(t for t in owner if t in aff)
            props = sorted({q for t in thms for q in owner[t]})
            r = dict(id=mid, definition=n, file="Model/%s.lean" % f, edit=desc, failed=sorted(failed), theorems=thms, props=props, ok_build="Build completed successfully" in out)
            with open(RES, "a") as h: h.write(json.dumps(r) + "\n")
            print(mid, "SURVIVED" if r["ok_build"] else ("caught" if thms else "CHECK"), desc[:100], "|", sorted(failed)[:4], props, flush=True)
            break
        else:
            with open(RES, "a") as h: h.write(json.dumps(dict(id=mid, definition=n, skipped=True)) + "\n")

def results():
    rs = {}
    for l in open(RES):
        r = json.loads(l); rs[r["id"]] = r
    return [r for r in rs.values() if not r.get("skipped")]

def report():
    rs = results()
    for r in rs:
        if r["ok_build"] or not r["theorems"]: print(r["id"], r["edit"], r["failed"])
    print(len(rs), "mutants,", sum(1 for r in rs if not r["ok_build"] and r["theorems"]), "caught")

def log():
    titles = {}
    for l in open(V + "/properties.jsonl"):
        q = json.loads(l); titles[q["id"]] = q["title"]
    path = V + "/seeded/LOG.jsonl"
    have = {json.loads(l)["id"] for l in open(path)}
    with open(path, "a") as f:
        for r in results():
            if r["id"] in have or r["ok_build"] or not r["theorems"]: continue
            f.write(json.dumps(dict(id=r["id"], definition=r["definition"], edit=r["edit"], claim="; ".join(titles[q] for q in r["props"][:3]), properties=r["props"][:6],
                                    failed=r["failed"][:8], theorems_failed=r["theorems"][:12], tightened=[], note="generated edit")) + "\n")

if __name__ == "__main__":
    {"run": lambda: run(sys.argv[2], sys.argv[3:]), "report": report, "log": log}[sys.argv[1]]()
