#!/usr/bin/env python3
"""Writes the text of the client into lean/Verif/Client/Text.lean, line by line."""
import sys
out = sys.argv[1] if len(sys.argv) > 1 else '/verif/lean/Verif/Client/Text.lean'
src = open('/repo/src/rpc/clients/static/websocket_client.ts', newline='').read()
assert all(c == '\n' or ' ' <= c <= '~' for c in src)
def q(s):
    return '[' + ', '.join("'" + {'\n': '\\n', "'": "\\'", '\\': '\\\\'}.get(c, c) + "'" for c in s) + ']'
lines = src.splitlines(keepends=True)
with open(out, 'w') as f:
    f.write('''import Verif.Basic.Str

/-!
# The text of the client code

Written by `tools/gen_client.py` from `src/rpc/clients/static/websocket_client.ts`: a list of characters for each line
(string literals are slow to evaluate in the kernel), with the line beside it as a comment.
-/

namespace Verif.Client
open Verif

/-- The lines of the client code. `src/rpc/clients/static/websocket_client.ts:1-%d`. -/
def clientLines : List Str :=
  [%s]

/-- `WebsocketClient::get()`: `src/rpc/clients/mod.rs:5-9`. -/
def clientText : Str := clientLines.flatten

end Verif.Client
''' % (len(lines), '\n   '.join(q(l) + (',' if i + 1 < len(lines) else '') + '  -- ' + l.rstrip() for i, l in enumerate(lines)) + '\n  '))
