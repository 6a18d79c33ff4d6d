# Writes random strings and their repr, in code points, to ./strrepr.txt.
import random

random.seed(7)
pool = [chr(c) for c in range(128)] + ["'", '"', "\\", " "] * 8
with open("strrepr.txt", "w") as f:
    for _ in range(20000):
        s = "".join(random.choice(pool) for _ in range(random.randrange(0, 9)))
        f.write(" ".join(str(ord(c)) for c in s) + "|" + " ".join(str(ord(c)) for c in repr(s)) + "\n")
