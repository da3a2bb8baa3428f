"""Mutation tests: python3 tools/mutate.py list.json

Each entry of the list: {"definition", "file", "old", "new", "claim"}, or "edits" with pairs instead of "old" and "new". The Lean project is copied to a scratch directory;
every edit is applied there on its own, the project is rebuilt and the theorems with errors are recorded.
The result is appended to seeded/LOG.jsonl.
"""
import json
import os
import re
import shutil
import subprocess
import sys

root = os.path.abspath(os.path.join(os.path.dirname(__file__), ".."))
scratch = os.environ.get("SCRATCH", "/tmp/mut/lean")


def owner(path, line):
    """Name of the theorem or example that contains a line; a doc comment belongs to the declaration after it."""
    name = "?"
    lines = open(path).read().split("\n")
    k = line - 1
    if k < len(lines) and lines[k].startswith("/--"):
        while k < len(lines) and not lines[k].rstrip().endswith("-/"):
            k += 1
        line = k + 2
    for i, text in enumerate(lines, 1):
        m = re.match(r"(?:@\[.*?\]\s*)?(?:private |noncomputable )?(theorem|lemma|def|instance|example|structure|abbrev)\b\s*(\S*)", text)
        if m:
            name = m.group(2) if m.group(1) not in ("example", "instance") else f"{m.group(1)} at line {i}"
            if m.group(1) == "def":
                name = "def " + name
        if i >= line:
            break
    return name


def run(m):
    dst = os.path.join(scratch, m["file"])
    text = open(dst).read()
    new = text
    for a, b in m.get("edits", [[m.get("old"), m.get("new")]]):
        if new.count(a) != 1:
            return {"error": f"pattern occurs {new.count(a)} times"}
        new = new.replace(a, b)
    open(dst, "w").write(new)
    out = subprocess.run(["lake", "build"], cwd=scratch, capture_output=True, text=True)
    failed = []
    for f, l in re.findall(r"error: (Verif/\S+?\.lean):(\d+):\d+", out.stdout + out.stderr):
        name = os.path.basename(f)[:-5] + "." + owner(os.path.join(scratch, f), int(l))
        if name not in failed:
            failed.append(name)
    open(dst, "w").write(text)
    return {"survived": out.returncode == 0, "failed": failed}


def main():
    os.makedirs(os.path.dirname(scratch), exist_ok=True)
    subprocess.run(["rsync", "-a", "--delete", os.path.join(root, "lean") + "/", scratch + "/"]) if shutil.which("rsync") else (
        shutil.rmtree(scratch, ignore_errors=True), subprocess.run(["cp", "-a", os.path.join(root, "lean"), scratch]))
    for m in json.load(open(sys.argv[1])):
        r = run(m)
        if "error" in r:
            print("SKIPPED", m["definition"], r["error"], flush=True)
            continue
        entry = {"definition": f"{m['definition']} ({m['file']})", "edit": "; ".join(f"{a}  =>  {b}" for a, b in m.get("edits", [[m.get("old"), m.get("new")]])), "claim": m["claim"],
                 "failed": r["failed"], "tightened": m.get("tightened", [])}
        if r["survived"]:
            entry["survived"] = True
        print(("SURVIVED " if r["survived"] else "caught ") + m["definition"], r["failed"][:4], flush=True)
        with open(os.path.join(root, "seeded", "LOG.jsonl"), "a") as f:
            f.write(json.dumps(entry, ensure_ascii=False) + "\n")


main()
