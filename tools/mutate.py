#!/usr/bin/env python3
"""Mutation testing of the theorems.

Each entry of tools/mutations.py edits one definition of the model like a realistic bug.  The edit is made in
a scratch copy (/tmp/mut), the project is rebuilt there, and the declarations that no longer compile are
collected together with the manifest theorems that depend on them.  Results go to /tmp/mutres.jsonl; reviewed
results are kept in seeded/LOG.jsonl.

usage: mutate.py setup        make/refresh the scratch copy and the dependency dump
       mutate.py run [ids]    run all (or the given) mutations that have no result yet
       mutate.py log          append reviewed results to seeded/LOG.jsonl
"""
import json, os, re, subprocess, sys
V = os.path.dirname(os.path.dirname(os.path.abspath(__file__)))
SCR = "/tmp/mut"
RES = "/tmp/mutres.jsonl"
sys.path.insert(0, os.path.join(V, "tools"))

def sh(cmd, cwd, timeout=3600):
    return subprocess.run(cmd, cwd=cwd, shell=True, text=True, stdout=subprocess.PIPE, stderr=subprocess.STDOUT, timeout=timeout).stdout

def setup():
    sh("rm -rf %s %s.src %s.build && cp -a %s/lean %s && cp -a %s/Verif %s.src && cp -a %s/.lake/build %s.build" % (SCR, SCR, SCR, V, SCR, SCR, SCR, SCR, SCR), "/tmp")
    print(sh("cp %s/tools/deps_lean.txt /tmp/Deps.lean; lake env lean /tmp/Deps.lean" % V, V + "/lean")[-500:])

def deps():
    g = {}
    for l in open("/tmp/deps.tsv"):
        n, _, d = l.rstrip("\n").partition("\t")
        g[n] = d.split()
    rev = {}
    for n, ds in g.items():
        for d in ds: rev.setdefault(d, set()).add(n)
    return g, rev

def dependents(rev, roots):
    seen, todo = set(roots), list(roots)
    while todo:
        for m in rev.get(todo.pop(), ()):
            if m not in seen: seen.add(m); todo.append(m)
    return seen

DECL = re.compile(r"^(?:@\[[^\]]*\]\s*)?(?:private |noncomputable |protected )*(theorem|def|lemma|instance|example|abbrev|inductive|structure)\s*(\S*)")

def decl_at(path, line):
    ns, cur = [], ("?", "?")
    for i, l in enumerate(open(path), 1):
        if i > line: break
        m = re.match(r"^namespace (\S+)", l)
        if m: ns.append(m.group(1))
        m = re.match(r"^end (\S+)", l)
        if m and ns and ns[-1] == m.group(1): ns.pop()
        m = DECL.match(l)
        if m: cur = (m.group(1), ".".join(ns + [m.group(2).rstrip(":")]) if m.group(1) != "example" else "example@%s:%d" % (os.path.basename(path), i))
    return cur

def run(ids):
    from mutations import M
    man = json.load(open(V + "/MANIFEST.json"))["claims"]
    owner = {}
    for c in man:
        for t in c["theorems"]: owner.setdefault(t, []).append(c["property"])
    g, rev = deps()
    sh("cp -a %s.src/. %s/Verif/" % (SCR, SCR), "/tmp")  # an interrupted run may have left an edit behind
    done = {json.loads(l)["id"] for l in open(RES)} if os.path.exists(RES) else set()
    if os.path.exists(V + "/seeded/LOG.jsonl"): done |= {json.loads(l)["id"] for l in open(V + "/seeded/LOG.jsonl")}
    for m in M:
        if ids and m["id"] not in ids: continue
        if m["id"] in done and not ids: continue
        p = "%s/Verif/%s" % (SCR, m["file"])
        src = open(p).read()
        if src.count(m["old"]) < 1: print(m["id"], "PATTERN NOT FOUND"); continue
        if src.count(m["old"]) > 1 and "nth" not in m: print(m["id"], "PATTERN AMBIGUOUS", src.count(m["old"])); continue
        if "nth" in m:
            parts = src.split(m["old"]); k = m["nth"]
            new = m["old"].join(parts[:k]) + m["new"] + m["old"].join(parts[k:])
        else: new = src.replace(m["old"], m["new"])
        open(p, "w").write(new)
        try:
            out = sh("lake build 2>&1", SCR)
        finally:
            open(p, "w").write(src)
        errs = set(re.findall(r"^error: (Verif/\S+?\.lean):(\d+):", out, re.M))
        failed = set()
        for f, ln in errs:
            path = SCR + "/" + f
            if f == "Verif/" + m["file"]:
                open("/tmp/mutsrc.lean", "w").write(new); k, n = decl_at("/tmp/mutsrc.lean", int(ln))
            else: k, n = decl_at(path, int(ln))
            failed.add(n)
        badmods = sorted(set(re.findall(r"^- (Verif\S*)", out, re.M)))
        priv = {n for n in g if n.startswith("_private.") and any(n.endswith("." + f) for f in failed)}
        aff = dependents(rev, failed | priv)
        thms = sorted(t for t in owner if t in aff)
        props = sorted({q for t in thms for q in owner[t]})
        r = dict(id=m["id"], definition=m["definition"], edit=m["edit"], claim=m["claim"], props=m["props"], failed_declarations=sorted(failed), failed_modules=badmods, failed_theorems=thms, failed_props=props,
                 caught=all(q in props for q in m["props"]), ok_build=("Build completed successfully" in out))
        if any(n.startswith("?") for n in failed) or (errs and not failed): r["note"] = out[-800:]
        with open(RES, "a") as f: f.write(json.dumps(r) + "\n")
        print(m["id"], "caught" if r["caught"] else ("SURVIVED" if r["ok_build"] else "CHECK"), "failed:", sorted(failed)[:6], "props:", props, flush=True)

def log():
    rs = {}
    for l in open(RES):
        r = json.loads(l); rs[r["id"]] = r
    path = V + "/seeded/LOG.jsonl"
    have = {json.loads(l)["id"] for l in open(path)} if os.path.exists(path) else set()
    from mutations import M
    with open(path, "a") as f:
        for m in M:
            if m["id"] in rs and m["id"] not in have and rs[m["id"]]["caught"]:
                r = rs[m["id"]]
                f.write(json.dumps(dict(id=r["id"], definition=r["definition"], edit=r["edit"], claim=r["claim"], properties=m["props"], failed=r["failed_declarations"], theorems_failed=[t for t in r["failed_theorems"]][:12], tightened=m.get("tightened", []), note=m.get("note", ""))) + "\n")

if __name__ == "__main__":
    {"setup": setup, "run": lambda: run(sys.argv[2:]), "log": log}[sys.argv[1]]()
