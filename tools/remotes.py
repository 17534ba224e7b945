"""Writes lean/Verif/Spec/RemoteTables.lean: the button tables of the remotes as printed in the sources, read by a
script (the tables of the model were typed by hand), sorted by code."""
import re, os
R = "/repo/src/remotecontrol/"
HERE = os.path.dirname(os.path.abspath(__file__))
SP = {"Return": "return_", "Eq": "eq_", "U_SD": "uSd", "Play_Pause": "playPause", "Play_Pause2": "playPause2"}
def lean(a): return "." + SP.get(a, a[0].lower() + a[1:])
FILES = [("samsungTv", "nec/samsungtv.rs"), ("specialForMp3", "nec/specialformp3.rs"), ("cdPlayer", "rc5/cdplayer.rs"),
         ("samsungBluRay", "sbp/blurayplayer.rs")]
out = ["import Verif.Model.Remote", "", "/-!", "# Button tables", "",
       "Written by `tools/remotes.py` from `/repo/src/remotecontrol`, sorted by code; not used by the model.", "-/", "",
       "namespace Infrared.Spec", ""]
def wrap(items):
    lines, cur = [], "   "
    for i, x in enumerate(items):
        x += "," if i + 1 < len(items) else ""
        if len(cur) + 1 + len(x) > 100:
            lines.append(cur); cur = "   "
        cur += " " + x
    return lines + [cur]
for name, f in FILES:
    s = open(R + f).read()
    addr = int(re.search(r"const ADDRESS: u32 = (\d+);", s).group(1))
    body = s[s.index("const BUTTONS"):]
    body = body[:body.index("];")]
    es = sorted((int(c), a) for c, a in re.findall(r"\((\d+), (\w+)\)", body))
    out += [f"/-- Address {addr}, `{f}`. -/", f"def {name}Address : Nat := {addr}", "",
            f"/-- {len(es)} buttons, `{f}`. -/", f"def {name}Table : List (Nat × Action) :=", "  ["]
    out += wrap([f"({c}, {lean(a)})" for c, a in es]) + ["  ]", ""]
s = open(R + "mod.rs").read()
body = s[s.index("fn to_str"):]
names = re.findall(r"(?:Action::)?(\w+) => \"([^\"]*)\"", body)
out += ["/-- `Action::to_str`, `mod.rs`. -/", "def actionNames : List (Action × String) :=", "  ["]
out += wrap([f'({lean(a)}, "{n}")' for a, n in names]) + ["  ]", "", "end Infrared.Spec", ""]
open(HERE + "/../lean/Verif/Spec/RemoteTables.lean", "w").write("\n".join(out))
