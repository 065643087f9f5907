#!/usr/bin/env python3
"""Mutation testing of the theorems, in a scratch copy (/tmp/mut).

usage: mutate.py MUTATIONS.json [id ...]

Each mutation is {"id", "file", "old", "new", "definition", "edit", "claim"}. The edited model is compiled together with everything that imports it.
A module with failing proofs is recorded, then compiled again with its proofs skipped (debug.proofAsSorry) so that the modules importing it
can still be checked one by one. Prints the property theorems that fail, directly or through a failing lemma.
"""
import json, os, re, subprocess, sys, shutil
from concurrent.futures import ThreadPoolExecutor, wait, FIRST_COMPLETED
SRC = os.environ.get("MUT_SRC", "/verif/lean")
W = os.environ.get("MUT_W", "/tmp/mut")
lp = subprocess.run(["lake", "env", "printenv", "LEAN_PATH"], cwd=SRC, capture_output=True, text=True).stdout.strip().split(":")[1:]

def modules(root):
    mods = {}
    for d, _, fs in os.walk(os.path.join(root, "Verif")):
        for f in fs:
            if f.endswith(".lean"):
                p = os.path.join(d, f)
                m = os.path.relpath(p, root)[:-5].replace("/", ".")
                txt = open(p).read()
                mods[m] = [x for x in re.findall(r"^import (Verif\.\S+)", txt, re.M)]
    return mods

def decl_at(lines, ln):
    pat = re.compile(r"^(?:@\[[^\]]*\]\s*)?(?:private\s+|protected\s+|noncomputable\s+)*(theorem|lemma|def|instance|example|structure|class|inductive|abbrev)\b\s*([^\s:({\[]*)")
    for i in range(ln - 1, -1, -1):
        m = pat.match(lines[i])
        if m:
            return (m.group(1) + "@" + str(i + 1)) if m.group(1) in ("example",) or not m.group(2) else m.group(2)
    return "?"

def run(root, out, m, skip):
    src = os.path.join(root, m.replace(".", "/") + ".lean")
    o = os.path.join(out, m.replace(".", "/") + ".olean")
    os.makedirs(os.path.dirname(o), exist_ok=True)
    env = dict(os.environ, LEAN_PATH=":".join([out, SRC + "/.lake/build/lib/lean"] + lp))
    cmd = ["lean", "-R", root, "-o", o]  # -R: the module name, on which the names of instances depend
    cmd += (["-D", "debug.proofAsSorry=true"] if skip else []) + [src]
    try:
        r = subprocess.run(cmd, env=env, capture_output=True, text=True, timeout=400)
        return r.returncode, r.stdout + r.stderr
    except subprocess.TimeoutExpired:
        return 99, src + ":1:0: error: timeout"

def mutate(mu, deps_json):
    root, out = W + "/src", W + "/out"
    shutil.rmtree(W + "/src", ignore_errors=True); shutil.rmtree(out, ignore_errors=True)
    os.makedirs(root); os.makedirs(out)
    shutil.copytree(SRC + "/Verif", root + "/Verif")
    p = os.path.join(root, mu["file"])
    s = open(p).read()
    if s.count(mu["old"]) != mu.get("count", 1):
        return {"id": mu["id"], "error": "pattern occurs %d times" % s.count(mu["old"])}
    open(p, "w").write(s.replace(mu["old"], mu["new"]))
    mods = modules(root)
    start = mu["file"][:-5].replace("/", ".")
    need, ch = {start}, True
    while ch:
        ch = False
        for m, ds in mods.items():
            if m not in need and any(d in need for d in ds):
                need.add(m); ch = True
    # unaffected modules are taken from the original build through LEAN_PATH; link them in so that the search path is uniform
    for m in mods:
        if m not in need:
            a = SRC + "/.lake/build/lib/lean/" + m.replace(".", "/") + ".olean"
            b = out + "/" + m.replace(".", "/") + ".olean"
            os.makedirs(os.path.dirname(b), exist_ok=True)
            os.symlink(a, b)
    done, failed, running, broken = set(), [], {}, []
    def work(m):
        rc, txt = run(root, out, m, False)
        fails = []
        if rc != 0:
            lines = open(os.path.join(root, m.replace(".", "/") + ".lean")).read().split("\n")
            for f, ln in re.findall(r"(\S+?\.lean):(\d+):\d+: error", txt):
                d = decl_at(lines, int(ln))
                if d not in fails: fails.append(d)
            # second pass: proofs skipped; blocks that fail even so (examples, concrete terms) are blanked out
            for _ in range(6):
                rc2, txt2 = run(root, out, m, True)
                if rc2 == 0: break
                src = os.path.join(root, m.replace(".", "/") + ".lean")
                lines = open(src).read().split("\n")
                for f, ln in re.findall(r"(\S+?\.lean):(\d+):\d+: error", txt2):
                    i = int(ln) - 1
                    while i > 0 and not re.match(r"(?:@\[[^\]]*\]\s*)?(?:private\s+|protected\s+|noncomputable\s+)*(theorem|lemma|def|instance|example|abbrev)\b", lines[i]): i -= 1
                    if re.match(r"example|theorem|lemma", lines[i]):
                        j = i
                        while j > 0 and not lines[j-1].rstrip().endswith("-/") and lines[j-1].strip() != "": j -= 1
                        if j > 0 and lines[j-1].rstrip().endswith("-/"):   # the doc comment goes with its declaration
                            while j > 0 and not lines[j-1].lstrip().startswith("/--"): j -= 1
                            j = max(j - 1, 0)
                        while j < len(lines) and (lines[j].strip() != "" or j <= i):
                            lines[j] = ""; j += 1
                open(src, "w").write("\n".join(lines))
            if rc2 != 0:
                return m, fails, txt2[:1500]
        return m, fails, None
    with ThreadPoolExecutor(4) as ex:
        pending = set(need)
        while pending or running:
            for m in sorted(pending):
                if all(d in done or d not in need for d in mods[m]):
                    if any(d in [b[0] for b in broken] for d in mods[m]):
                        broken.append((m, "blocked")); done.add(m); pending.discard(m); continue
                    running[ex.submit(work, m)] = m; pending.discard(m)
            if not running: continue
            ds, _ = wait(list(running), return_when=FIRST_COMPLETED)
            for f in ds:
                m, fails, br = f.result()
                running.pop(f); done.add(m)
                failed += [(m, x) for x in fails]
                if br: broken.append((m, br))
    names = {x for _, x in failed}
    deps = deps_json
    # closure: property theorems using a failed lemma
    bad = set()
    short = lambda n: n
    failset = set()
    for m, x in failed:
        for full in deps:
            if full == "NdHist." + x or full.endswith("." + x): failset.add(full)
    memo = {}
    def uses(n, seen):
        if n in memo: return memo[n]
        if n in failset: memo[n] = True; return True
        memo[n] = False
        r = any(uses(d, seen) for d in deps.get(n, []))
        memo[n] = r
        return r
    sys.setrecursionlimit(100000)
    thms = sorted({n.split(".")[-1] for n in deps if re.search(r"(^|\.)C\d\d+_", n) and uses(n, set()) and not re.search(r"_proof_|match_", n)})
    return {"id": mu["id"], "direct": sorted({x for _, x in failed if re.match(r"C\d\d+_", x)}), "lemmas": sorted({x for _, x in failed if not re.match(r"C\d\d+_", x)}),
            "affected": thms, "broken": broken}

def main():
    muts = json.load(open(sys.argv[1]))
    ids = set(sys.argv[2:])
    finished = {json.loads(l)["id"] for l in open(W + "/results.jsonl")} if os.path.exists(W + "/results.jsonl") else set()
    deps = json.load(open(W + "/deps.json"))
    for mu in muts:
        if (ids and mu["id"] not in ids) or (not ids and mu["id"] in finished): continue
        r = mutate(mu, deps)
        with open(W + "/results.jsonl", "a") as f: f.write(json.dumps(r) + "\n")
        print(mu["id"], "|", mu["definition"], "|", mu["edit"])
        if "error" in r: print("   ERROR", r["error"]); continue
        print("   direct :", " ".join(r["direct"]))
        print("   lemmas :", " ".join(r["lemmas"]))
        print("   other affected:", " ".join(t for t in r["affected"] if t not in r["direct"]))
        for b in r["broken"]: print("   BROKEN", b[0], b[1][:300])
        sys.stdout.flush()
main()
