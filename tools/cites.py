#!/usr/bin/env python3
"""Check that the line numbers cited in the model and in properties.jsonl exist in /repo."""
import glob, json, os, re, sys

REPO = "/repo/src/"
FILES = {p[len(REPO):]: sum(1 for _ in open(p)) for p in glob.glob(REPO + "**/*.rs", recursive=True)}


def lookup(name, near):
    """The files a cited name may mean; a bare name means a file cited by its path nearby if there is one."""
    name = name.removeprefix("src/")
    hits = [f for f in FILES if f == name or f.endswith("/" + name)]
    paths = [f for f in hits if f in near]
    return paths or hits


def extent(f, d):
    """The last line of the item that begins at line d."""
    lines, depth, seen = open(REPO + f).read().split("\n"), 0, False
    for i in range(d - 1, len(lines)):
        depth += lines[i].count("{") - lines[i].count("}")
        seen = seen or "{" in lines[i]
        if (seen and depth <= 0) or (not seen and lines[i].rstrip().endswith(";")):
            return i + 1
    return d


bad = 0
for path in sorted(glob.glob("/verif/lean/Verif/[MSP]*/**/*.lean", recursive=True)):
    text = open(path).read()
    near = set(m.removeprefix("src/") for m in re.findall(r"(?:src/)?[\w/]+/[\w]+\.rs", text))
    for m in re.finditer(r"([\w/]+\.rs)`?:? ?((?:\d+(?:-\d+)?(?:, )?)+)", text):
        hits = lookup(m.group(1), near)
        last = max(int(n) for n in re.findall(r"\d+", m.group(2)))
        if not hits or all(FILES[f] < last for f in hits):
            bad += 1
            print(path, m.group(0), hits)
        for r in re.findall(r"(\d+)-(\d+)", m.group(2)):
            if int(r[0]) > int(r[1]):
                bad += 1
                print(path, m.group(0), "backwards")
    # a function cited by name begins in the lines cited, or they are lines of it
    for m in re.finditer(r"`(?:\w+(?:<[^`]*>)?::)*(\w+)` \(`?([\w/]+\.rs)`? (\d+)-(\d+)", text):
        for f in lookup(m.group(2), near):
            defs = [i for i, l in enumerate(open(REPO + f), 1)
                    if re.search(r"\b(fn|struct|enum|const|static|type|trait) " + m.group(1) + r"\b", l)]
            if defs and any(int(m.group(3)) - 1 <= d <= int(m.group(4)) or d <= int(m.group(3)) <= extent(f, d) for d in defs):
                break
        else:
            if any(re.search(r"\b(fn|struct|enum|const|static|type|trait) " + m.group(1) + r"\b", open(REPO + f).read())
                   for f in lookup(m.group(2), near)):
                bad += 1
                print(path, m.group(0), defs)
for line in open("/verif/properties.jsonl"):
    o = json.loads(line)
    for a in o["anchors"]:
        f, _, n = a.partition(":")
        f = f.removeprefix("src/")
        if f not in FILES or max([int(x) for x in re.findall(r"\d+", n)], default=0) > FILES[f]:
            bad += 1
            print(o["id"], a)
sys.exit(bad != 0)
