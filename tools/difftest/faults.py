#!/usr/bin/env python3
"""Compares Model/Faults (BufferedWriter, TextIOWrapper, zipfile on a failing device) with CPython.
usage: faults.py gen N   -> writes /tmp/dt/faults.lean with N random cases and /tmp/dt/faults.exp
then:  cd lean && lake env lean /tmp/dt/faults.lean > /tmp/dt/faults.out ; cmp /tmp/dt/faults.out /tmp/dt/faults.exp"""
import io, random, sys, zipfile, time
random.seed(int(sys.argv[3]) if len(sys.argv) > 3 else 1)

class Raw(io.RawIOBase):
    def __init__(self, script): self.b = bytearray(); self.p = 0; self.script = list(script); self.failed = False
    def writable(self): return True
    def seekable(self): return True
    def tell(self): return self.p
    def seek(self, o, w=0):
        assert w == 0 or (w == 1 and o == 0), (o, w)
        if w == 0: self.p = o
        return self.p
    def write(self, d):
        d = bytes(d)
        k = self.script.pop(0) if self.script else len(d)
        if k is None:
            self.failed = True
            raise OSError(28, "full")
        k = max(1, min(k, len(d)))
        self.b[self.p:self.p + k] = d[:k]; self.p += k
        return k

def run(kind, size, chunk, script, data):
    raw = Raw(script)
    f = io.BufferedWriter(raw, size)
    ok = True
    try:
        if kind == 0:
            with f:
                old = time.localtime
                zipfile.time.localtime = lambda t=None: (2021, 5, 3, 10, 20, 30, 0, 0, 0)
                try:
                    with zipfile.ZipFile(f, mode="w") as zf:
                        zf.writestr("Song.xml", data)
                finally:
                    zipfile.time.localtime = old
        else:
            t = io.TextIOWrapper(f, encoding="ascii", newline="\n")
            t._CHUNK_SIZE = chunk
            try:
                t.write(data[:-1].decode()); t.write(data[-1:].decode())
            finally:
                t.close()
    except OSError:
        ok = False
    return ok, raw.failed, bytes(raw.b)

def main():
    n = int(sys.argv[2])
    lean = ["import Verif.Model.Faults", "open VgmX",
"""def script : Device where
  St := List (Option Nat)
  write := fun s _ _ n => match s with
    | [] => (.ok n, [])
    | none :: s => (.error (.other 28), s)
    | some k :: s => (.ok k, s)
  emptied := fun s _ => s
def start (sc : List (Option Nat)) : Open script where
  fs := fun n => if n = ['f'] then some [] else none
  dev := sc
  failed := false
  name := ['f']
  pos := 0
  buf := []
  text := []
def shw (r : Except PyErr Unit × Open script) : String :=
  (match r.1 with | .ok _ => "ok " | .error _ => "error ") ++ toString r.2.failed ++ " " ++ toString (r.2.content.map (·.toNat))
def zipCase (size chunk : Nat) (sc : List (Option Nat)) (data : Bytes) : String :=
  shw (tryFinally (zipFileF ⟨size, chunk⟩ (fun _ _ _ => (.ok (), [])) ⟨2021, 5, 3, 10, 20, 30⟩ (utf8 "Song.xml".toList) data) Open.flush (start sc))
def textCase (size chunk : Nat) (sc : List (Option Nat)) (data : Bytes) : String :=
  shw (tryFinally (andThen (Open.textWrite ⟨size, chunk⟩ data.dropLast) (Open.textWrite ⟨size, chunk⟩ (data.drop (data.length - 1)))) (Open.textClose ⟨size, chunk⟩) (start sc))
"""]
    exp = []
    for i in range(n):
        kind = random.randrange(2)
        size = random.choice([1, 5, 20, 38, 50, 60, 100, 200]); chunk = random.choice([1, 10, 50, 1000])
        data = bytes(random.randrange(32, 127) for _ in range(random.choice([1, 2, 10, 30, 70, 150])))
        pf = random.choice([0, 0.05, 0.2, 0.6, 1.0])
        script = [None if random.random() < pf else random.choice([1, 3, 10, 1000]) for _ in range(random.randrange(1, 40))]
        if random.random() < 0.3:
            k = random.randrange(len(script)); script = script[:k] + [None] * 50
        ok, failed, b = run(kind, size, chunk, script, data)
        exp.append(f'{"ok" if ok else "error"} {"true" if failed else "false"} [{", ".join(map(str, b))}]')
        sc = "[" + ", ".join("none" if x is None else f"some {x}" for x in script) + "]"
        lean.append(f'#eval IO.println ({"zipCase" if kind == 0 else "textCase"} {size} {chunk} {sc} [{", ".join(map(str, data))}])')
    open("/tmp/dt/faults.lean", "w").write("\n".join(lean) + "\n")
    open("/tmp/dt/faults.exp", "w").write("\n".join(exp) + "\n")
main()
