#!/usr/bin/env python3
"""Writes COVERAGE.md: which functions of /repo the comments of the model cite, and which they do not.
Also reports citations of lines that do not exist. A function counts as cited if a cited range of lines
meets its body."""
import os, re, sys
REPO, LEAN = "/repo", "/verif/lean/Verif"
DIRS = ["libraries/cbor/src", "libraries/crypto/src", "libraries/opensk/src", "libraries/persistent_store/src",
        "src", "bootloader/src"]
files = []
for d in DIRS:
    for root, _, names in os.walk(os.path.join(REPO, d)):
        for n in names:
            if n.endswith(".rs"):
                files.append(os.path.relpath(os.path.join(root, n), REPO))
for extra in ["boards/nordic/nrf52840dk_opensk_a/build.rs", "boards/nordic/nrf52840dk_opensk_b/build.rs",
              "boards/nordic/nrf52840dk_opensk/src/main.rs"]:
    if os.path.exists(os.path.join(REPO, extra)): files.append(extra)
for root, _, names in os.walk(REPO):
    for n in names:
        r = os.path.relpath(os.path.join(root, n), REPO)
        if r.endswith(("libtock-drivers/src/storage.rs", "libtock-drivers/src/util.rs", "libtock-drivers/src/timer.rs", "libtock-drivers/src/usb_ctap_hid.rs")): files.append(r)
# Only used by tests, or alternatives not compiled into the firmware.
SKIP = ("/env/test/", "test_helpers", "persistent_store/src/driver.rs",
        "persistent_store/src/file.rs", "persistent_store/src/model.rs", "persistent_store/src/test.rs", "rust_crypto.rs",
        "/test/", "examples/")
files = sorted(set(f for f in files if not any(x in f for x in SKIP)))
DEFAULT = {
    "Cbor": ["libraries/cbor/src/"], "Crypto": ["libraries/crypto/src/"], "P256": ["libraries/crypto/src/ec/", "libraries/crypto/src/"],
    "Ctap": ["libraries/opensk/src/ctap/", "libraries/opensk/src/api/", "libraries/opensk/src/", "src/env/tock/"],
    "Hid": ["libraries/opensk/src/ctap/hid/", "libraries/opensk/src/ctap/", "libraries/opensk/src/"],
    "Store": ["libraries/persistent_store/src/"],
    "Device": ["libraries/opensk/src/api/crypto/", "libraries/opensk/src/api/", "libraries/opensk/src/ctap/", "libraries/crypto/src/", "libraries/opensk/src/"],
    "Usb": ["libraries/opensk/src/ctap/", "libraries/opensk/src/", "libraries/opensk/src/api/"],
    "Main": ["src/", "libraries/opensk/src/ctap/", "libraries/opensk/src/ctap/hid/", "libraries/opensk/src/", "src/env/tock/"],
    "Disk": ["libraries/opensk/src/ctap/", "libraries/opensk/src/api/"],
    "Tock": ["src/env/tock/", "bootloader/src/", "libraries/opensk/src/api/", "libraries/persistent_store/src/"],
}
def resolve(area, name):
    for base in DEFAULT.get(area, []):
        if base + name in files: return base + name
    c = [f for f in files if f == name or f.endswith("/" + name) or f.endswith(name) and name.startswith("drivers/")]
    return c[0] if len(c) == 1 else (c or None)
lines = {f: open(os.path.join(REPO, f)).read().split("\n") for f in files}
cites, bad = {f: [] for f in files}, []
pat = re.compile(r"`?([A-Za-z_0-9/]+\.rs)`?[: ]+((?:lines? )?\d+(?:[-–]\d+)?(?:(?:, | and |,)\d+(?:[-–]\d+)?)*)")
more = re.compile(r"\((\d+[-–]\d+)\)")
for root, _, names in os.walk(LEAN):
    for n in sorted(names):
        if not n.endswith(".lean"): continue
        p = os.path.join(root, n)
        area = os.path.relpath(p, LEAN).split("/")[0]
        text = open(p).read()
        for com in re.findall(r"/-.*?-/", text, re.S):
            com = re.sub(r"\s+", " ", com)
            last = None
            for m in re.finditer(pat.pattern + "|" + more.pattern, com):
                if m.group(1):
                    f = resolve(area, m.group(1)); last = f
                    spec = m.group(2)
                else:
                    f, spec = last, m.group(3)
                if not isinstance(f, str):
                    if m.group(1): bad.append((n, m.group(0), "file " + str(f)))
                    continue
                for a, b in re.findall(r"(\d+)(?:[-–](\d+))?", spec):
                    a = int(a); b = int(b or a)
                    if b < a or b > len(lines[f]): bad.append((n, m.group(0), "%s has %d lines" % (f, len(lines[f]))))
                    else: cites[f].append((a, b))
def functions(f):
    ls, out, i, test = lines[f], [], 0, False
    n = len(ls)
    stack, depth, tests_at = [], 0, None
    pend = False
    for idx, l in enumerate(ls):
        s = re.sub(r'"(\\.|[^"\\])*"', '""', l)
        s = re.sub(r"'(\\.|[^'\\])'", "' '", s)
        s = re.sub(r"//.*", "", s)
        if re.search(r"#\[cfg\((any\()?(test|feature = \"std\"|feature = \"fuzz|feature = \"test)", s) or "#[test]" in s or '#[cfg(test' in s or re.search(r'#\[cfg\(.*(test|feature = ""\)).*', s) and "test" in l or 'cfg(feature = "std")' in l or 'cfg(any(feature = "std", test))' in l: pend = True
        m = re.match(r"\s*(pub(\([a-z]+\))? )?(const )?(unsafe )?(extern \"\" )?fn (\w+)", s)
        istest = pend
        if m and tests_at is None and not istest:
            out.append([m.group(6), idx + 1, None, depth])
        if "{" in s or ";" in s:
            if pend and "{" in s and tests_at is None and re.search(r"\b(mod|fn|impl|struct|enum|trait)\b", s):
                tests_at = depth
            if re.search(r"\b(mod|fn|impl|struct|enum|trait|use|const|static|type)\b", s): pend = False
        depth += s.count("{") - s.count("}")
        if tests_at is not None and depth <= tests_at and "}" in s: tests_at = None
        for o in out:
            if o[2] is None and depth <= o[3] and ("}" in s or s.rstrip().endswith(";")): o[2] = idx + 1
    # Declarations without a body (in traits) are left out.
    return [(a, b, c) for a, b, c, _ in out if c and "{" in "".join(ls[b - 1:c])]
md = ["# Functions of the code and the model", "",
      "Generated by `scripts/coverage.py` from the citations in the comments of the model. A function is listed as",
      "modelled if a cited range of lines meets it. Functions and files only compiled for tests, and",
      "`rust_crypto.rs` (an alternative to `software_crypto.rs` that the firmware does not use), are left out.", ""]
tot = cov = 0
rows = []
for f in sorted(files):
    fs = functions(f)
    if not fs: continue
    yes = [a for a, b, c in fs if any(x <= c and b <= y for x, y in cites[f])]
    no = [a for a, b, c in fs if not any(x <= c and b <= y for x, y in cites[f])]
    tot += len(fs); cov += len(yes)
    rows.append((f, yes, no))
md += ["%d of %d functions." % (cov, tot), "", "| File | Modelled | Not modelled |", "|---|---|---|"]
for f, yes, no in rows:
    md.append("| `%s` | %s | %s |" % (f, ("%d: " % len(yes) + ", ".join(yes)) if yes else "–", ", ".join(no) or "–"))
open("/verif/COVERAGE.md", "w").write("\n".join(md) + "\n")
print(cov, tot)
for b in bad: print("BAD", b)
