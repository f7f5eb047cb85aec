#!/usr/bin/env python3
"""Compare the Go text in lean/Verif/Go/Source.lean with the files of /repo; list anchors that name nothing."""
import json, os, re, sys
root = os.path.dirname(os.path.dirname(os.path.abspath(__file__)))
repo = sys.argv[1] if len(sys.argv) > 1 else "/repo"
bad = 0
text = open(root + "/lean/Verif/Go/Source.lean").read()
for name, body in re.findall(r'go_source (\w+) r#+"(.*?)"#+', text, re.S):
    same = open(f"{repo}/{name}.go").read() == body
    print(name, "same" if same else "DIFFERENT")
    bad += not same
for line in open(root + "/properties.jsonl"):
    p = json.loads(line)
    for a in p["anchors"]:
        f, _, fn = a.partition(":")
        if not fn and os.path.exists(f"{repo}/{f}"):
            continue
        if not os.path.exists(f"{repo}/{f}") or not re.search(r"\b" + re.escape(fn.split(".")[-1]) + r"\b", open(f"{repo}/{f}").read()):
            print("anchor", p["id"], a)
            bad += 1
        elif not re.search(r"^(func (\([^)]*\) )?|type |var |const |\t)" + re.escape(fn.split(".")[-1]) + r"\b", open(f"{repo}/{f}").read(), re.M):
            print("anchor not declared there", p["id"], a)
            bad += 1
sys.exit(bad != 0)
