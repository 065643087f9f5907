#!/usr/bin/env python3
"""Append to seeded/LOG.jsonl the results of mutations not logged yet. usage: log_mutations.py RESULTS.jsonl... MUTATIONS.json...
Survivors are listed, and caught mutations whose claim names a property none of whose theorems failed."""
import json, sys, os, re
L = "/verif/seeded/LOG.jsonl"
# concrete cases that did not compile in the scratch copy for another reason than the edit (names of instances)
ARTEFACT = {"C63_tuple1_eq", "exEqs", "i32Eq"}
# survivors: what was done about them, or why the edit breaks no claim
NOTES = json.load(open("/verif/seeded/NOTES.json")) if os.path.exists("/verif/seeded/NOTES.json") else {}
TITLES = {p["id"]: p["title"] for p in map(json.loads, open("/verif/properties.jsonl"))}
def claim_text(claim, fail):
    """the claim in words: numbers of properties that are not affected are dropped, and titles added where there is nothing but numbers"""
    got = {x.split("_")[0] for x in fail}
    claimed = set(re.findall(r"C\d\d+", claim))
    if fail and claimed and not claimed & got: claim = re.sub(r"^[ /:,;]+", "", re.sub(r"C\d\d+[/]?", "", claim)).strip()
    words = re.sub(r"C\d\d+(_\w+)?[/,: ]*", "", claim).strip(" ()?/,")
    if not re.search(r"[a-z]{4}.* ", words) and words != "none":
        ids = re.findall(r"C\d\d+", claim) or sorted(x for x in got if x in TITLES)[:2]
        claim = (words + " (" if words else "") + "; ".join(f"{i} {TITLES[i]}" for i in ids if i in TITLES) + (")" if words else "")
    return claim
done = {json.loads(l).get("id") for l in open(L)} if os.path.exists(L) else set()
mu, res = {}, []
for f in sys.argv[1:]:
    if f.endswith(".jsonl"): res += [json.loads(l) for l in open(f)]
    else:
        for m in json.load(open(f)): mu[m["id"]] = m
with open(L, "a") as out:
    for r in res:
        if r["id"] in done or r["id"] not in mu or "error" in r: continue
        m = mu[r["id"]]
        done.add(r["id"])
        drop = ARTEFACT if "i32Eq" in r["lemmas"] else set()
        pre = "_root_.NdHist."
        fail = [x for x in r["affected"] + [x[len(pre):] for x in r["lemmas"] if x.startswith(pre + "C")] if x not in drop]
        lem = [x for x in r["lemmas"] if x not in drop]
        note = NOTES.get(r["id"], {})
        if note.get("skip"): continue
        e = {"id": r["id"], "definition": m["definition"], "file": m["file"], "edit": m["edit"], "claim": claim_text(m["claim"], fail), "theorems_failed": fail, "failing_lemmas": lem,
             "verdict": "caught" if fail else note.get("verdict", "SURVIVED"), "theorems_tightened": note.get("tightened", [])}
        if "note" in note: e["note"] = note["note"]
        out.write(json.dumps(e) + "\n")
        claimed = set(re.findall(r"C\d\d+", m["claim"]))
        got = {x[:3] for x in fail}
        if not fail: print("SURVIVED", r["id"], m["definition"], "|", m["edit"], "|", m["claim"], "|", note)
        elif claimed and not claimed & got: print("other claim", r["id"], m["edit"], "|", m["claim"], "|", sorted(got))
