import Verif.Basic.Str

/-!
# The text of the client code

Written by `tools/gen_client.py` from `src/rpc/clients/static/websocket_client.ts`: a list of characters for each line
(string literals are slow to evaluate in the kernel), with the line beside it as a comment.
-/

namespace Verif.Client
open Verif

/-- The lines of the client code. `src/rpc/clients/static/websocket_client.ts:1-203`. -/
def clientLines : List Str :=
  [['i', 'm', 'p', 'o', 'r', 't', ' ', '*', ' ', 'a', 's', ' ', 'z', ' ', 'f', 'r', 'o', 'm', ' ', '"', 'z', 'o', 'd', '"', ';', '\n'],  -- import * as z from "zod";
   ['\n'],  -- 
   ['c', 'o', 'n', 's', 't', ' ', 'W', 'S', '_', 'A', 'D', 'D', 'R', ' ', '=', ' ', '"', 'w', 's', ':', '/', '/', 'l', 'o', 'c', 'a', 'l', 'h', 'o', 's', 't', ':', '8', '0', '0', '0', '/', 'w', 's', '"', ';', '\n'],  -- const WS_ADDR = "ws://localhost:8000/ws";
   ['\n'],  -- 
   ['c', 'o', 'n', 's', 't', ' ', 'r', 'e', 'o', 'p', 'e', 'n', 'T', 'i', 'm', 'e', 'o', 'u', 't', 's', ' ', '=', ' ', '[', '1', '0', '0', ',', ' ', '2', '0', '0', ',', ' ', '1', '0', '0', '0', ',', ' ', '3', '0', '0', '0', ']', ';', '\n'],  -- const reopenTimeouts = [100, 200, 1000, 3000];
   ['\n'],  -- 
   ['f', 'u', 'n', 'c', 't', 'i', 'o', 'n', ' ', 'w', 'e', 'b', 's', 'o', 'c', 'k', 'e', 't', 'S', 't', 'o', 'r', 'e', '(', 'u', 'r', 'l', ':', ' ', 's', 't', 'r', 'i', 'n', 'g', ')', ' ', '{', '\n'],  -- function websocketStore(url: string) {
   [' ', ' ', 'l', 'e', 't', ' ', 'i', 'n', 'i', 't', 'i', 'a', 'l', 'V', 'a', 'l', 'u', 'e', ':', ' ', 'u', 'n', 'k', 'n', 'o', 'w', 'n', ' ', '=', ' ', 'u', 'n', 'd', 'e', 'f', 'i', 'n', 'e', 'd', ';', '\n'],  --   let initialValue: unknown = undefined;
   [' ', ' ', 'l', 'e', 't', ' ', 's', 'o', 'c', 'k', 'e', 't', ':', ' ', 'W', 'e', 'b', 'S', 'o', 'c', 'k', 'e', 't', ' ', '|', ' ', 'u', 'n', 'd', 'e', 'f', 'i', 'n', 'e', 'd', ';', '\n'],  --   let socket: WebSocket | undefined;
   [' ', ' ', 'l', 'e', 't', ' ', 'o', 'p', 'e', 'n', 'P', 'r', 'o', 'm', 'i', 's', 'e', ':', ' ', 'P', 'r', 'o', 'm', 'i', 's', 'e', '<', 'u', 'n', 'd', 'e', 'f', 'i', 'n', 'e', 'd', '>', ' ', '|', ' ', 'u', 'n', 'd', 'e', 'f', 'i', 'n', 'e', 'd', ';', '\n'],  --   let openPromise: Promise<undefined> | undefined;
   [' ', ' ', 'l', 'e', 't', ' ', 'r', 'e', 'o', 'p', 'e', 'n', 'T', 'i', 'm', 'e', 'o', 'u', 't', 'H', 'a', 'n', 'd', 'l', 'e', 'r', ':', ' ', 'a', 'n', 'y', ';', '\n'],  --   let reopenTimeoutHandler: any;
   [' ', ' ', 'l', 'e', 't', ' ', 'r', 'e', 'o', 'p', 'e', 'n', 'C', 'o', 'u', 'n', 't', ' ', '=', ' ', '0', ';', '\n'],  --   let reopenCount = 0;
   ['\n'],  -- 
   [' ', ' ', 'c', 'o', 'n', 's', 't', ' ', 's', 'u', 'b', 's', 'c', 'r', 'i', 'p', 't', 'i', 'o', 'n', 's', ' ', '=', ' ', 'n', 'e', 'w', ' ', 'S', 'e', 't', '<', '(', '[', 'i', 'd', ',', ' ', 'd', 'a', 't', 'a', ']', ':', ' ', '[', 'n', 'u', 'm', 'b', 'e', 'r', ',', ' ', 'u', 'n', 'k', 'n', 'o', 'w', 'n', ']', ')', ' ', '=', '>', ' ', 'v', 'o', 'i', 'd', '>', '(', ')', ';', '\n'],  --   const subscriptions = new Set<([id, data]: [number, unknown]) => void>();
   ['\n'],  -- 
   [' ', ' ', 'f', 'u', 'n', 'c', 't', 'i', 'o', 'n', ' ', 'r', 'e', 'o', 'p', 'e', 'n', 'T', 'i', 'm', 'e', 'o', 'u', 't', '(', ')', ' ', '{', '\n'],  --   function reopenTimeout() {
   [' ', ' ', ' ', ' ', 'c', 'o', 'n', 's', 't', ' ', 'n', ' ', '=', ' ', 'r', 'e', 'o', 'p', 'e', 'n', 'C', 'o', 'u', 'n', 't', ';', '\n'],  --     const n = reopenCount;
   [' ', ' ', ' ', ' ', 'r', 'e', 'o', 'p', 'e', 'n', 'C', 'o', 'u', 'n', 't', '+', '+', ';', '\n'],  --     reopenCount++;
   [' ', ' ', ' ', ' ', 'r', 'e', 't', 'u', 'r', 'n', ' ', 'r', 'e', 'o', 'p', 'e', 'n', 'T', 'i', 'm', 'e', 'o', 'u', 't', 's', '[', '\n'],  --     return reopenTimeouts[
   [' ', ' ', ' ', ' ', ' ', ' ', 'n', ' ', '>', '=', ' ', 'r', 'e', 'o', 'p', 'e', 'n', 'T', 'i', 'm', 'e', 'o', 'u', 't', 's', '.', 'l', 'e', 'n', 'g', 't', 'h', ' ', '-', ' ', '1', ' ', '?', ' ', 'r', 'e', 'o', 'p', 'e', 'n', 'T', 'i', 'm', 'e', 'o', 'u', 't', 's', '.', 'l', 'e', 'n', 'g', 't', 'h', ' ', '-', ' ', '1', ' ', ':', ' ', 'n', '\n'],  --       n >= reopenTimeouts.length - 1 ? reopenTimeouts.length - 1 : n
   [' ', ' ', ' ', ' ', ']', ';', '\n'],  --     ];
   [' ', ' ', '}', '\n'],  --   }
   ['\n'],  -- 
   [' ', ' ', 'f', 'u', 'n', 'c', 't', 'i', 'o', 'n', ' ', 'c', 'l', 'o', 's', 'e', '(', ')', ' ', '{', '\n'],  --   function close() {
   [' ', ' ', ' ', ' ', 'i', 'f', ' ', '(', 'r', 'e', 'o', 'p', 'e', 'n', 'T', 'i', 'm', 'e', 'o', 'u', 't', 'H', 'a', 'n', 'd', 'l', 'e', 'r', ')', ' ', '{', '\n'],  --     if (reopenTimeoutHandler) {
   [' ', ' ', ' ', ' ', ' ', ' ', 'c', 'l', 'e', 'a', 'r', 'T', 'i', 'm', 'e', 'o', 'u', 't', '(', 'r', 'e', 'o', 'p', 'e', 'n', 'T', 'i', 'm', 'e', 'o', 'u', 't', 'H', 'a', 'n', 'd', 'l', 'e', 'r', ')', ';', '\n'],  --       clearTimeout(reopenTimeoutHandler);
   [' ', ' ', ' ', ' ', '}', '\n'],  --     }
   ['\n'],  -- 
   [' ', ' ', ' ', ' ', 'i', 'f', ' ', '(', 's', 'o', 'c', 'k', 'e', 't', ')', ' ', '{', '\n'],  --     if (socket) {
   [' ', ' ', ' ', ' ', ' ', ' ', 's', 'o', 'c', 'k', 'e', 't', '.', 'c', 'l', 'o', 's', 'e', '(', ')', ';', '\n'],  --       socket.close();
   [' ', ' ', ' ', ' ', ' ', ' ', 's', 'o', 'c', 'k', 'e', 't', ' ', '=', ' ', 'u', 'n', 'd', 'e', 'f', 'i', 'n', 'e', 'd', ';', '\n'],  --       socket = undefined;
   [' ', ' ', ' ', ' ', '}', '\n'],  --     }
   [' ', ' ', '}', '\n'],  --   }
   ['\n'],  -- 
   [' ', ' ', 'f', 'u', 'n', 'c', 't', 'i', 'o', 'n', ' ', 'r', 'e', 'o', 'p', 'e', 'n', '(', ')', ' ', '{', '\n'],  --   function reopen() {
   [' ', ' ', ' ', ' ', 'c', 'l', 'o', 's', 'e', '(', ')', ';', '\n'],  --     close();
   [' ', ' ', ' ', ' ', 'i', 'f', ' ', '(', 's', 'u', 'b', 's', 'c', 'r', 'i', 'p', 't', 'i', 'o', 'n', 's', '.', 's', 'i', 'z', 'e', ' ', '>', ' ', '0', ')', ' ', '{', '\n'],  --     if (subscriptions.size > 0) {
   [' ', ' ', ' ', ' ', ' ', ' ', 'r', 'e', 'o', 'p', 'e', 'n', 'T', 'i', 'm', 'e', 'o', 'u', 't', 'H', 'a', 'n', 'd', 'l', 'e', 'r', ' ', '=', ' ', 's', 'e', 't', 'T', 'i', 'm', 'e', 'o', 'u', 't', '(', '(', ')', ' ', '=', '>', ' ', 'o', 'p', 'e', 'n', '(', ')', ',', ' ', 'r', 'e', 'o', 'p', 'e', 'n', 'T', 'i', 'm', 'e', 'o', 'u', 't', '(', ')', ')', ';', '\n'],  --       reopenTimeoutHandler = setTimeout(() => open(), reopenTimeout());
   [' ', ' ', ' ', ' ', '}', '\n'],  --     }
   [' ', ' ', '}', '\n'],  --   }
   ['\n'],  -- 
   [' ', ' ', 'a', 's', 'y', 'n', 'c', ' ', 'f', 'u', 'n', 'c', 't', 'i', 'o', 'n', ' ', 'o', 'p', 'e', 'n', '(', ')', ':', ' ', 'P', 'r', 'o', 'm', 'i', 's', 'e', '<', 'u', 'n', 'd', 'e', 'f', 'i', 'n', 'e', 'd', '>', ' ', '{', '\n'],  --   async function open(): Promise<undefined> {
   [' ', ' ', ' ', ' ', 'i', 'f', ' ', '(', 'r', 'e', 'o', 'p', 'e', 'n', 'T', 'i', 'm', 'e', 'o', 'u', 't', 'H', 'a', 'n', 'd', 'l', 'e', 'r', ')', ' ', '{', '\n'],  --     if (reopenTimeoutHandler) {
   [' ', ' ', ' ', ' ', ' ', ' ', 'c', 'l', 'e', 'a', 'r', 'T', 'i', 'm', 'e', 'o', 'u', 't', '(', 'r', 'e', 'o', 'p', 'e', 'n', 'T', 'i', 'm', 'e', 'o', 'u', 't', 'H', 'a', 'n', 'd', 'l', 'e', 'r', ')', ';', '\n'],  --       clearTimeout(reopenTimeoutHandler);
   [' ', ' ', ' ', ' ', ' ', ' ', 'r', 'e', 'o', 'p', 'e', 'n', 'T', 'i', 'm', 'e', 'o', 'u', 't', 'H', 'a', 'n', 'd', 'l', 'e', 'r', ' ', '=', ' ', 'u', 'n', 'd', 'e', 'f', 'i', 'n', 'e', 'd', ';', '\n'],  --       reopenTimeoutHandler = undefined;
   [' ', ' ', ' ', ' ', '}', '\n'],  --     }
   ['\n'],  -- 
   [' ', ' ', ' ', ' ', '/', '/', ' ', 'w', 'e', ' ', 'a', 'r', 'e', ' ', 's', 't', 'i', 'l', 'l', ' ', 'i', 'n', ' ', 't', 'h', 'e', ' ', 'o', 'p', 'e', 'n', 'i', 'n', 'g', ' ', 'p', 'h', 'a', 's', 'e', '\n'],  --     // we are still in the opening phase
   [' ', ' ', ' ', ' ', 'i', 'f', ' ', '(', 'o', 'p', 'e', 'n', 'P', 'r', 'o', 'm', 'i', 's', 'e', ')', ' ', '{', '\n'],  --     if (openPromise) {
   [' ', ' ', ' ', ' ', ' ', ' ', 'r', 'e', 't', 'u', 'r', 'n', ' ', 'o', 'p', 'e', 'n', 'P', 'r', 'o', 'm', 'i', 's', 'e', ';', '\n'],  --       return openPromise;
   [' ', ' ', ' ', ' ', '}', '\n'],  --     }
   ['\n'],  -- 
   [' ', ' ', ' ', ' ', 'c', 'o', 'n', 's', 'o', 'l', 'e', '.', 'd', 'e', 'b', 'u', 'g', '(', '"', 'c', 'r', 'e', 'a', 't', 'i', 'n', 'g', ' ', 'a', ' ', 'n', 'e', 'w', ' ', 's', 'o', 'c', 'k', 'e', 't', '"', ')', ';', '\n'],  --     console.debug("creating a new socket");
   [' ', ' ', ' ', ' ', 's', 'o', 'c', 'k', 'e', 't', ' ', '=', ' ', 'n', 'e', 'w', ' ', 'W', 'e', 'b', 'S', 'o', 'c', 'k', 'e', 't', '(', 'u', 'r', 'l', ')', ';', '\n'],  --     socket = new WebSocket(url);
   ['\n'],  -- 
   [' ', ' ', ' ', ' ', 's', 'o', 'c', 'k', 'e', 't', '.', 'o', 'n', 'm', 'e', 's', 's', 'a', 'g', 'e', ' ', '=', ' ', '(', 'e', 'v', 'e', 'n', 't', ')', ' ', '=', '>', ' ', '{', '\n'],  --     socket.onmessage = (event) => {
   [' ', ' ', ' ', ' ', ' ', ' ', 'c', 'o', 'n', 's', 't', ' ', 'r', 'e', 's', ' ', '=', ' ', 'J', 'S', 'O', 'N', '.', 'p', 'a', 'r', 's', 'e', '(', 'e', 'v', 'e', 'n', 't', '.', 'd', 'a', 't', 'a', ')', ';', '\n'],  --       const res = JSON.parse(event.data);
   [' ', ' ', ' ', ' ', ' ', ' ', 'c', 'o', 'n', 's', 'o', 'l', 'e', '.', 't', 'r', 'a', 'c', 'e', '(', '{', ' ', 'r', 'e', 's', 'p', 'o', 'n', 's', 'e', ':', ' ', 'r', 'e', 's', ' ', '}', ')', ';', '\n'],  --       console.trace({ response: res });
   ['\n'],  -- 
   [' ', ' ', ' ', ' ', ' ', ' ', '/', '/', ' ', 'T', 'O', 'D', 'O', '\n'],  --       // TODO
   [' ', ' ', ' ', ' ', ' ', ' ', 'i', 'f', ' ', '(', '"', 'm', 'e', 't', 'h', 'o', 'd', '"', ' ', 'i', 'n', ' ', 'r', 'e', 's', ')', ' ', '{', '\n'],  --       if ("method" in res) {
   [' ', ' ', ' ', ' ', ' ', ' ', ' ', ' ', 'i', 'n', 'i', 't', 'i', 'a', 'l', 'V', 'a', 'l', 'u', 'e', ' ', '=', ' ', '[', 'r', 'e', 's', '.', 'm', 'e', 't', 'h', 'o', 'd', '.', 'i', 'd', ',', ' ', 'r', 'e', 's', '.', 'm', 'e', 't', 'h', 'o', 'd', '.', 'd', 'a', 't', 'a', ']', ';', '\n'],  --         initialValue = [res.method.id, res.method.data];
   [' ', ' ', ' ', ' ', ' ', ' ', ' ', ' ', 's', 'u', 'b', 's', 'c', 'r', 'i', 'p', 't', 'i', 'o', 'n', 's', '.', 'f', 'o', 'r', 'E', 'a', 'c', 'h', '(', '(', 's', 'u', 'b', 's', 'c', 'r', 'i', 'p', 't', 'i', 'o', 'n', ')', ' ', '=', '>', '\n'],  --         subscriptions.forEach((subscription) =>
   [' ', ' ', ' ', ' ', ' ', ' ', ' ', ' ', ' ', ' ', 's', 'u', 'b', 's', 'c', 'r', 'i', 'p', 't', 'i', 'o', 'n', '(', 'i', 'n', 'i', 't', 'i', 'a', 'l', 'V', 'a', 'l', 'u', 'e', ' ', 'a', 's', ' ', 'a', 'n', 'y', ')', '\n'],  --           subscription(initialValue as any)
   [' ', ' ', ' ', ' ', ' ', ' ', ' ', ' ', ')', ';', '\n'],  --         );
   [' ', ' ', ' ', ' ', ' ', ' ', '}', ' ', 'e', 'l', 's', 'e', ' ', 'i', 'f', ' ', '(', '"', 's', 't', 'r', 'e', 'a', 'm', '"', ' ', 'i', 'n', ' ', 'r', 'e', 's', ')', ' ', '{', '\n'],  --       } else if ("stream" in res) {
   [' ', ' ', ' ', ' ', ' ', ' ', ' ', ' ', 'i', 'n', 'i', 't', 'i', 'a', 'l', 'V', 'a', 'l', 'u', 'e', ' ', '=', ' ', '[', 'r', 'e', 's', '.', 's', 't', 'r', 'e', 'a', 'm', '.', 'i', 'd', ',', ' ', 'r', 'e', 's', '.', 's', 't', 'r', 'e', 'a', 'm', '.', 'd', 'a', 't', 'a', ']', ';', '\n'],  --         initialValue = [res.stream.id, res.stream.data];
   [' ', ' ', ' ', ' ', ' ', ' ', ' ', ' ', 's', 'u', 'b', 's', 'c', 'r', 'i', 'p', 't', 'i', 'o', 'n', 's', '.', 'f', 'o', 'r', 'E', 'a', 'c', 'h', '(', '(', 's', 'u', 'b', 's', 'c', 'r', 'i', 'p', 't', 'i', 'o', 'n', ')', ' ', '=', '>', '\n'],  --         subscriptions.forEach((subscription) =>
   [' ', ' ', ' ', ' ', ' ', ' ', ' ', ' ', ' ', ' ', 's', 'u', 'b', 's', 'c', 'r', 'i', 'p', 't', 'i', 'o', 'n', '(', 'i', 'n', 'i', 't', 'i', 'a', 'l', 'V', 'a', 'l', 'u', 'e', ' ', 'a', 's', ' ', 'a', 'n', 'y', ')', '\n'],  --           subscription(initialValue as any)
   [' ', ' ', ' ', ' ', ' ', ' ', ' ', ' ', ')', ';', '\n'],  --         );
   [' ', ' ', ' ', ' ', ' ', ' ', '}', '\n'],  --       }
   [' ', ' ', ' ', ' ', '}', ';', '\n'],  --     };
   ['\n'],  -- 
   [' ', ' ', ' ', ' ', 's', 'o', 'c', 'k', 'e', 't', '.', 'o', 'n', 'c', 'l', 'o', 's', 'e', ' ', '=', ' ', '(', 'e', 'v', 'e', 'n', 't', ':', ' ', 'E', 'v', 'e', 'n', 't', ')', ' ', '=', '>', ' ', '{', '\n'],  --     socket.onclose = (event: Event) => {
   [' ', ' ', ' ', ' ', ' ', ' ', 'i', 'f', ' ', '(', 's', 'u', 'b', 's', 'c', 'r', 'i', 'p', 't', 'i', 'o', 'n', 's', '.', 's', 'i', 'z', 'e', ' ', '>', ' ', '0', ')', ' ', '{', '\n'],  --       if (subscriptions.size > 0) {
   [' ', ' ', ' ', ' ', ' ', ' ', ' ', ' ', 'c', 'o', 'n', 's', 'o', 'l', 'e', '.', 'w', 'a', 'r', 'n', '(', 'e', 'v', 'e', 'n', 't', ')', ';', '\n'],  --         console.warn(event);
   [' ', ' ', ' ', ' ', ' ', ' ', '}', '\n'],  --       }
   [' ', ' ', ' ', ' ', ' ', ' ', 'r', 'e', 'o', 'p', 'e', 'n', '(', ')', ';', '\n'],  --       reopen();
   [' ', ' ', ' ', ' ', '}', ';', '\n'],  --     };
   ['\n'],  -- 
   [' ', ' ', ' ', ' ', 'o', 'p', 'e', 'n', 'P', 'r', 'o', 'm', 'i', 's', 'e', ' ', '=', ' ', 'n', 'e', 'w', ' ', 'P', 'r', 'o', 'm', 'i', 's', 'e', '(', '(', 'r', 'e', 's', 'o', 'l', 'v', 'e', ',', ' ', 'r', 'e', 'j', 'e', 'c', 't', ')', ' ', '=', '>', ' ', '{', '\n'],  --     openPromise = new Promise((resolve, reject) => {
   [' ', ' ', ' ', ' ', ' ', ' ', 'i', 'f', ' ', '(', '!', 's', 'o', 'c', 'k', 'e', 't', ')', ' ', '{', '\n'],  --       if (!socket) {
   [' ', ' ', ' ', ' ', ' ', ' ', ' ', ' ', 'o', 'p', 'e', 'n', 'P', 'r', 'o', 'm', 'i', 's', 'e', ' ', '=', ' ', 'u', 'n', 'd', 'e', 'f', 'i', 'n', 'e', 'd', ';', '\n'],  --         openPromise = undefined;
   [' ', ' ', ' ', ' ', ' ', ' ', ' ', ' ', 'r', 'e', 't', 'u', 'r', 'n', ';', '\n'],  --         return;
   [' ', ' ', ' ', ' ', ' ', ' ', '}', '\n'],  --       }
   ['\n'],  -- 
   [' ', ' ', ' ', ' ', ' ', ' ', 's', 'o', 'c', 'k', 'e', 't', '.', 'o', 'n', 'e', 'r', 'r', 'o', 'r', ' ', '=', ' ', '(', 'e', 'r', 'r', 'o', 'r', ')', ' ', '=', '>', ' ', '{', '\n'],  --       socket.onerror = (error) => {
   [' ', ' ', ' ', ' ', ' ', ' ', ' ', ' ', 'r', 'e', 'j', 'e', 'c', 't', '(', 'e', 'r', 'r', 'o', 'r', ')', ';', '\n'],  --         reject(error);
   [' ', ' ', ' ', ' ', ' ', ' ', ' ', ' ', 'o', 'p', 'e', 'n', 'P', 'r', 'o', 'm', 'i', 's', 'e', ' ', '=', ' ', 'u', 'n', 'd', 'e', 'f', 'i', 'n', 'e', 'd', ';', '\n'],  --         openPromise = undefined;
   [' ', ' ', ' ', ' ', ' ', ' ', '}', ';', '\n'],  --       };
   [' ', ' ', ' ', ' ', ' ', ' ', 's', 'o', 'c', 'k', 'e', 't', '.', 'o', 'n', 'o', 'p', 'e', 'n', ' ', '=', ' ', '(', '_', ':', ' ', 'E', 'v', 'e', 'n', 't', ')', ' ', '=', '>', ' ', '{', '\n'],  --       socket.onopen = (_: Event) => {
   [' ', ' ', ' ', ' ', ' ', ' ', ' ', ' ', 'r', 'e', 'o', 'p', 'e', 'n', 'C', 'o', 'u', 'n', 't', ' ', '=', ' ', '0', ';', '\n'],  --         reopenCount = 0;
   [' ', ' ', ' ', ' ', ' ', ' ', ' ', ' ', 'r', 'e', 's', 'o', 'l', 'v', 'e', '(', 'u', 'n', 'd', 'e', 'f', 'i', 'n', 'e', 'd', ')', ';', '\n'],  --         resolve(undefined);
   [' ', ' ', ' ', ' ', ' ', ' ', ' ', ' ', 'o', 'p', 'e', 'n', 'P', 'r', 'o', 'm', 'i', 's', 'e', ' ', '=', ' ', 'u', 'n', 'd', 'e', 'f', 'i', 'n', 'e', 'd', ';', '\n'],  --         openPromise = undefined;
   [' ', ' ', ' ', ' ', ' ', ' ', '}', ';', '\n'],  --       };
   [' ', ' ', ' ', ' ', '}', ')', ';', '\n'],  --     });
   [' ', ' ', ' ', ' ', 'r', 'e', 't', 'u', 'r', 'n', ' ', 'o', 'p', 'e', 'n', 'P', 'r', 'o', 'm', 'i', 's', 'e', ';', '\n'],  --     return openPromise;
   [' ', ' ', '}', '\n'],  --   }
   ['\n'],  -- 
   [' ', ' ', 'c', 'o', 'n', 's', 't', ' ', 'o', 'p', 'e', 'n', '_', 'a', 'n', 'd', '_', 's', 'e', 'n', 'd', ' ', '=', ' ', '(', 'v', 'a', 'l', 'u', 'e', ':', ' ', 's', 't', 'r', 'i', 'n', 'g', ')', ' ', '=', '>', ' ', '{', '\n'],  --   const open_and_send = (value: string) => {
   [' ', ' ', ' ', ' ', 'i', 'f', ' ', '(', '!', 's', 'o', 'c', 'k', 'e', 't', ' ', '|', '|', ' ', 's', 'o', 'c', 'k', 'e', 't', '.', 'r', 'e', 'a', 'd', 'y', 'S', 't', 'a', 't', 'e', ' ', '!', '=', '=', ' ', 'W', 'e', 'b', 'S', 'o', 'c', 'k', 'e', 't', '.', 'O', 'P', 'E', 'N', ')', '\n'],  --     if (!socket || socket.readyState !== WebSocket.OPEN)
   [' ', ' ', ' ', ' ', ' ', ' ', 'o', 'p', 'e', 'n', '(', ')', '.', 't', 'h', 'e', 'n', '(', '(', ')', ' ', '=', '>', ' ', 'o', 'p', 'e', 'n', '_', 'a', 'n', 'd', '_', 's', 'e', 'n', 'd', '(', 'v', 'a', 'l', 'u', 'e', ')', ')', ';', '\n'],  --       open().then(() => open_and_send(value));
   [' ', ' ', ' ', ' ', 'e', 'l', 's', 'e', ' ', '{', '\n'],  --     else {
   [' ', ' ', ' ', ' ', ' ', ' ', 's', 'o', 'c', 'k', 'e', 't', '.', 's', 'e', 'n', 'd', '(', 'v', 'a', 'l', 'u', 'e', ')', ';', '\n'],  --       socket.send(value);
   [' ', ' ', ' ', ' ', '}', '\n'],  --     }
   [' ', ' ', '}', ';', '\n'],  --   };
   ['\n'],  -- 
   [' ', ' ', 'r', 'e', 't', 'u', 'r', 'n', ' ', '{', '\n'],  --   return {
   [' ', ' ', ' ', ' ', 's', 'e', 'n', 'd', '(', 'v', 'a', 'l', 'u', 'e', ':', ' ', 's', 't', 'r', 'i', 'n', 'g', ')', ' ', '{', '\n'],  --     send(value: string) {
   [' ', ' ', ' ', ' ', ' ', ' ', 'o', 'p', 'e', 'n', '_', 'a', 'n', 'd', '_', 's', 'e', 'n', 'd', '(', 'v', 'a', 'l', 'u', 'e', ')', ';', '\n'],  --       open_and_send(value);
   [' ', ' ', ' ', ' ', '}', ',', '\n'],  --     },
   [' ', ' ', ' ', ' ', 's', 'u', 'b', 's', 'c', 'r', 'i', 'b', 'e', '(', 's', 'u', 'b', 's', 'c', 'r', 'i', 'p', 't', 'i', 'o', 'n', ':', ' ', '(', 'v', 'a', 'l', 'u', 'e', ':', ' ', '[', 'n', 'u', 'm', 'b', 'e', 'r', ',', ' ', 'u', 'n', 'k', 'n', 'o', 'w', 'n', ']', ')', ' ', '=', '>', ' ', 'v', 'o', 'i', 'd', ')', ' ', '{', '\n'],  --     subscribe(subscription: (value: [number, unknown]) => void) {
   [' ', ' ', ' ', ' ', ' ', ' ', 's', 'u', 'b', 's', 'c', 'r', 'i', 'p', 't', 'i', 'o', 'n', 's', '.', 'a', 'd', 'd', '(', 's', 'u', 'b', 's', 'c', 'r', 'i', 'p', 't', 'i', 'o', 'n', ')', ';', '\n'],  --       subscriptions.add(subscription);
   [' ', ' ', ' ', ' ', ' ', ' ', 'r', 'e', 't', 'u', 'r', 'n', ' ', '(', ')', ' ', '=', '>', ' ', '{', '\n'],  --       return () => {
   [' ', ' ', ' ', ' ', ' ', ' ', ' ', ' ', 's', 'u', 'b', 's', 'c', 'r', 'i', 'p', 't', 'i', 'o', 'n', 's', '.', 'd', 'e', 'l', 'e', 't', 'e', '(', 's', 'u', 'b', 's', 'c', 'r', 'i', 'p', 't', 'i', 'o', 'n', ')', ';', '\n'],  --         subscriptions.delete(subscription);
   [' ', ' ', ' ', ' ', ' ', ' ', ' ', ' ', 'i', 'f', ' ', '(', 's', 'u', 'b', 's', 'c', 'r', 'i', 'p', 't', 'i', 'o', 'n', 's', '.', 's', 'i', 'z', 'e', ' ', '=', '=', '=', ' ', '0', ')', ' ', '{', '\n'],  --         if (subscriptions.size === 0) {
   [' ', ' ', ' ', ' ', ' ', ' ', ' ', ' ', ' ', ' ', 'c', 'l', 'o', 's', 'e', '(', ')', ';', '\n'],  --           close();
   [' ', ' ', ' ', ' ', ' ', ' ', ' ', ' ', '}', '\n'],  --         }
   [' ', ' ', ' ', ' ', ' ', ' ', '}', ';', '\n'],  --       };
   [' ', ' ', ' ', ' ', '}', ',', '\n'],  --     },
   [' ', ' ', '}', ';', '\n'],  --   };
   ['}', '\n'],  -- }
   ['\n'],  -- 
   ['t', 'y', 'p', 'e', ' ', 'S', 't', 'o', 'r', 'e', '<', 'T', '>', ' ', '=', ' ', '{', '\n'],  -- type Store<T> = {
   [' ', ' ', 's', 'u', 'b', 's', 'c', 'r', 'i', 'b', 'e', '(', 's', 'u', 'b', 's', 'c', 'r', 'i', 'b', 'e', 'r', ':', ' ', '(', 'v', 'a', 'l', 'u', 'e', ':', ' ', 'T', ')', ' ', '=', '>', ' ', 'v', 'o', 'i', 'd', ')', ':', ' ', '(', ')', ' ', '=', '>', ' ', 'v', 'o', 'i', 'd', ';', '\n'],  --   subscribe(subscriber: (value: T) => void): () => void;
   [' ', ' ', 'c', 'l', 'o', 's', 'e', '(', ')', ':', ' ', 'v', 'o', 'i', 'd', ';', '\n'],  --   close(): void;
   ['}', ';', '\n'],  -- };
   ['\n'],  -- 
   ['c', 'o', 'n', 's', 't', ' ', 'C', 'O', 'N', 'N', 'E', 'C', 'T', 'I', 'O', 'N', ' ', '=', ' ', 'w', 'e', 'b', 's', 'o', 'c', 'k', 'e', 't', 'S', 't', 'o', 'r', 'e', '(', 'W', 'S', '_', 'A', 'D', 'D', 'R', ')', ';', '\n'],  -- const CONNECTION = websocketStore(WS_ADDR);
   ['l', 'e', 't', ' ', 'r', 'e', 'q', '_', 'i', 'd', ' ', '=', ' ', '0', ';', '\n'],  -- let req_id = 0;
   ['\n'],  -- 
   ['f', 'u', 'n', 'c', 't', 'i', 'o', 'n', ' ', 'e', 'x', 'e', 'c', 'u', 't', 'e', '(', '{', '\n'],  -- function execute({
   [' ', ' ', 'r', 'e', 'q', '_', 'i', 'd', ',', '\n'],  --   req_id,
   [' ', ' ', 'm', 'e', 't', 'h', 'o', 'd', ',', '\n'],  --   method,
   [' ', ' ', 'n', 'a', 'm', 'e', 's', 'p', 'a', 'c', 'e', ',', '\n'],  --   namespace,
   [' ', ' ', 'a', 'r', 'g', 's', ',', '\n'],  --   args,
   ['}', ':', ' ', '{', '\n'],  -- }: {
   [' ', ' ', 'r', 'e', 'q', '_', 'i', 'd', ':', ' ', 'n', 'u', 'm', 'b', 'e', 'r', ';', '\n'],  --   req_id: number;
   [' ', ' ', 'n', 'a', 'm', 'e', 's', 'p', 'a', 'c', 'e', ':', ' ', 's', 't', 'r', 'i', 'n', 'g', ';', '\n'],  --   namespace: string;
   [' ', ' ', 'm', 'e', 't', 'h', 'o', 'd', ':', ' ', 's', 't', 'r', 'i', 'n', 'g', ';', '\n'],  --   method: string;
   [' ', ' ', 'a', 'r', 'g', 's', ':', ' ', 'a', 'n', 'y', '[', ']', ';', '\n'],  --   args: any[];
   ['}', ')', ':', ' ', 's', 't', 'r', 'i', 'n', 'g', ' ', '{', '\n'],  -- }): string {
   [' ', ' ', 'r', 'e', 't', 'u', 'r', 'n', ' ', 'J', 'S', 'O', 'N', '.', 's', 't', 'r', 'i', 'n', 'g', 'i', 'f', 'y', '(', '{', ' ', 'e', 'x', 'e', 'c', ':', ' ', '{', ' ', 'i', 'd', ':', ' ', 'r', 'e', 'q', '_', 'i', 'd', ',', ' ', 'm', 'e', 't', 'h', 'o', 'd', ',', ' ', 'n', 'a', 'm', 'e', 's', 'p', 'a', 'c', 'e', ',', ' ', 'a', 'r', 'g', 's', ' ', '}', ' ', '}', ')', ';', '\n'],  --   return JSON.stringify({ exec: { id: req_id, method, namespace, args } });
   ['}', '\n'],  -- }
   ['\n'],  -- 
   ['e', 'x', 'p', 'o', 'r', 't', ' ', 'f', 'u', 'n', 'c', 't', 'i', 'o', 'n', ' ', 's', 'u', 'b', 's', 'c', 'r', 'i', 'b', 'e', '<', 'T', '>', '(', '\n'],  -- export function subscribe<T>(
   [' ', ' ', 'n', 'a', 'm', 'e', 's', 'p', 'a', 'c', 'e', ':', ' ', 's', 't', 'r', 'i', 'n', 'g', ',', '\n'],  --   namespace: string,
   [' ', ' ', 'm', 'e', 't', 'h', 'o', 'd', ':', ' ', 's', 't', 'r', 'i', 'n', 'g', ',', '\n'],  --   method: string,
   [' ', ' ', 'a', 'r', 'g', 's', ':', ' ', 'I', 'A', 'r', 'g', 'u', 'm', 'e', 'n', 't', 's', '\n'],  --   args: IArguments
   [')', ':', ' ', 'S', 't', 'o', 'r', 'e', '<', 'T', '>', ' ', '{', '\n'],  -- ): Store<T> {
   [' ', ' ', 'r', 'e', 'q', '_', 'i', 'd', ' ', '+', '=', ' ', '1', ';', '\n'],  --   req_id += 1;
   [' ', ' ', 'l', 'e', 't', ' ', 'i', 'd', ' ', '=', ' ', 'r', 'e', 'q', '_', 'i', 'd', ';', '\n'],  --   let id = req_id;
   [' ', ' ', 'l', 'e', 't', ' ', 'r', 'e', 'q', ' ', '=', ' ', '{', ' ', 'r', 'e', 'q', '_', 'i', 'd', ',', ' ', 'n', 'a', 'm', 'e', 's', 'p', 'a', 'c', 'e', ',', ' ', 'm', 'e', 't', 'h', 'o', 'd', ',', ' ', 'a', 'r', 'g', 's', ':', ' ', '[', '.', '.', '.', 'a', 'r', 'g', 's', ']', ' ', '}', ';', '\n'],  --   let req = { req_id, namespace, method, args: [...args] };
   ['\n'],  -- 
   [' ', ' ', 'l', 'e', 't', ' ', 's', 't', 'o', 'r', 'e', ' ', '=', ' ', '{', '\n'],  --   let store = {
   [' ', ' ', ' ', ' ', 's', 'u', 'b', 's', 'c', 'r', 'i', 'b', 'e', '(', 'c', 'b', ':', ' ', '(', 'v', 'a', 'l', 'u', 'e', ':', ' ', 'T', ')', ' ', '=', '>', ' ', 'v', 'o', 'i', 'd', ')', ' ', '{', '\n'],  --     subscribe(cb: (value: T) => void) {
   [' ', ' ', ' ', ' ', ' ', ' ', 'r', 'e', 't', 'u', 'r', 'n', ' ', 'C', 'O', 'N', 'N', 'E', 'C', 'T', 'I', 'O', 'N', '.', 's', 'u', 'b', 's', 'c', 'r', 'i', 'b', 'e', '(', '(', '[', 'r', 'e', 's', '_', 'i', 'd', ',', ' ', 'd', 'a', 't', 'a', ']', ')', ' ', '=', '>', ' ', '{', '\n'],  --       return CONNECTION.subscribe(([res_id, data]) => {
   [' ', ' ', ' ', ' ', ' ', ' ', ' ', ' ', 'i', 'f', ' ', '(', 'r', 'e', 's', '_', 'i', 'd', ' ', '=', '=', ' ', 'i', 'd', ')', ' ', '{', '\n'],  --         if (res_id == id) {
   [' ', ' ', ' ', ' ', ' ', ' ', ' ', ' ', ' ', ' ', 'c', 'b', '(', 'd', 'a', 't', 'a', ' ', 'a', 's', ' ', 'T', ')', ';', '\n'],  --           cb(data as T);
   [' ', ' ', ' ', ' ', ' ', ' ', ' ', ' ', '}', '\n'],  --         }
   [' ', ' ', ' ', ' ', ' ', ' ', '}', ')', ';', '\n'],  --       });
   [' ', ' ', ' ', ' ', '}', ',', '\n'],  --     },
   [' ', ' ', ' ', ' ', 'c', 'l', 'o', 's', 'e', '(', ')', ' ', '{', '}', ',', '\n'],  --     close() {},
   [' ', ' ', '}', ';', '\n'],  --   };
   ['\n'],  -- 
   [' ', ' ', 'C', 'O', 'N', 'N', 'E', 'C', 'T', 'I', 'O', 'N', '.', 's', 'e', 'n', 'd', '(', 'e', 'x', 'e', 'c', 'u', 't', 'e', '(', 'r', 'e', 'q', ')', ')', ';', '\n'],  --   CONNECTION.send(execute(req));
   ['\n'],  -- 
   [' ', ' ', 'r', 'e', 't', 'u', 'r', 'n', ' ', 's', 't', 'o', 'r', 'e', ';', '\n'],  --   return store;
   ['}', '\n'],  -- }
   ['\n'],  -- 
   ['e', 'x', 'p', 'o', 'r', 't', ' ', 'a', 's', 'y', 'n', 'c', ' ', 'f', 'u', 'n', 'c', 't', 'i', 'o', 'n', ' ', 'r', 'e', 'q', 'u', 'e', 's', 't', '<', 'T', '>', '(', '\n'],  -- export async function request<T>(
   [' ', ' ', 'n', 'a', 'm', 'e', 's', 'p', 'a', 'c', 'e', ':', ' ', 's', 't', 'r', 'i', 'n', 'g', ',', '\n'],  --   namespace: string,
   [' ', ' ', 'm', 'e', 't', 'h', 'o', 'd', ':', ' ', 's', 't', 'r', 'i', 'n', 'g', ',', '\n'],  --   method: string,
   [' ', ' ', 'a', 'r', 'g', 's', ':', ' ', 'I', 'A', 'r', 'g', 'u', 'm', 'e', 'n', 't', 's', '\n'],  --   args: IArguments
   [')', ':', ' ', 'P', 'r', 'o', 'm', 'i', 's', 'e', '<', 'T', '>', ' ', '{', '\n'],  -- ): Promise<T> {
   [' ', ' ', 'l', 'e', 't', ' ', 'u', 'n', 's', 'u', 'b', 's', 'c', 'r', 'i', 'b', 'e', ':', ' ', '(', ')', ' ', '=', '>', ' ', 'v', 'o', 'i', 'd', ' ', '|', ' ', 'u', 'n', 'd', 'e', 'f', 'i', 'n', 'e', 'd', ';', '\n'],  --   let unsubscribe: () => void | undefined;
   [' ', ' ', 'l', 'e', 't', ' ', 'p', 'r', 'o', 'm', 'i', 's', 'e', ' ', '=', ' ', 'n', 'e', 'w', ' ', 'P', 'r', 'o', 'm', 'i', 's', 'e', '(', '(', 'r', 'e', 's', 'o', 'l', 'v', 'e', ':', ' ', '(', '_', ':', ' ', 'T', ')', ' ', '=', '>', ' ', 'v', 'o', 'i', 'd', ',', ' ', '_', ')', ' ', '=', '>', ' ', '{', '\n'],  --   let promise = new Promise((resolve: (_: T) => void, _) => {
   [' ', ' ', ' ', ' ', 'r', 'e', 'q', '_', 'i', 'd', ' ', '+', '=', ' ', '1', ';', '\n'],  --     req_id += 1;
   [' ', ' ', ' ', ' ', 'l', 'e', 't', ' ', 'i', 'd', ' ', '=', ' ', 'r', 'e', 'q', '_', 'i', 'd', ';', '\n'],  --     let id = req_id;
   [' ', ' ', ' ', ' ', 'l', 'e', 't', ' ', 'r', 'e', 'q', 'u', 'e', 's', 't', ' ', '=', ' ', '{', ' ', 'r', 'e', 'q', '_', 'i', 'd', ',', ' ', 'n', 'a', 'm', 'e', 's', 'p', 'a', 'c', 'e', ',', ' ', 'm', 'e', 't', 'h', 'o', 'd', ',', ' ', 'a', 'r', 'g', 's', ':', ' ', '[', '.', '.', '.', 'a', 'r', 'g', 's', ']', ' ', '}', ';', '\n'],  --     let request = { req_id, namespace, method, args: [...args] };
   [' ', ' ', ' ', ' ', 'l', 'e', 't', ' ', 's', 't', 'a', 'r', 't', ' ', '=', ' ', 'p', 'e', 'r', 'f', 'o', 'r', 'm', 'a', 'n', 'c', 'e', '.', 'n', 'o', 'w', '(', ')', ';', '\n'],  --     let start = performance.now();
   ['\n'],  -- 
   [' ', ' ', ' ', ' ', 'u', 'n', 's', 'u', 'b', 's', 'c', 'r', 'i', 'b', 'e', ' ', '=', ' ', 'C', 'O', 'N', 'N', 'E', 'C', 'T', 'I', 'O', 'N', '.', 's', 'u', 'b', 's', 'c', 'r', 'i', 'b', 'e', '(', '(', '[', 'r', 'e', 's', '_', 'i', 'd', ',', ' ', 'd', 'a', 't', 'a', ']', ':', ' ', '[', 'n', 'u', 'm', 'b', 'e', 'r', ',', ' ', 'a', 'n', 'y', ']', ')', ' ', '=', '>', ' ', '{', '\n'],  --     unsubscribe = CONNECTION.subscribe(([res_id, data]: [number, any]) => {
   [' ', ' ', ' ', ' ', ' ', ' ', 'i', 'f', ' ', '(', 'r', 'e', 's', '_', 'i', 'd', ' ', '=', '=', ' ', 'i', 'd', ')', ' ', '{', '\n'],  --       if (res_id == id) {
   [' ', ' ', ' ', ' ', ' ', ' ', ' ', ' ', 'c', 'o', 'n', 's', 'o', 'l', 'e', '.', 'l', 'o', 'g', '(', '"', 'E', 'x', 'e', 'c', ' ', 'R', 'e', 's', 'p', 'o', 'n', 's', 'e', '"', ',', ' ', '{', '\n'],  --         console.log("Exec Response", {
   [' ', ' ', ' ', ' ', ' ', ' ', ' ', ' ', ' ', ' ', 'r', 'e', 'q', '_', 'i', 'd', ',', '\n'],  --           req_id,
   [' ', ' ', ' ', ' ', ' ', ' ', ' ', ' ', ' ', ' ', 'r', 'e', 'q', 'u', 'e', 's', 't', ',', '\n'],  --           request,
   [' ', ' ', ' ', ' ', ' ', ' ', ' ', ' ', ' ', ' ', 'r', 'e', 's', 'p', 'o', 'n', 's', 'e', ':', ' ', 'd', 'a', 't', 'a', ',', '\n'],  --           response: data,
   [' ', ' ', ' ', ' ', ' ', ' ', ' ', ' ', ' ', ' ', 'e', 'x', 'e', 'c', '_', 'd', 'u', 'r', 'a', 't', 'i', 'o', 'n', '_', 'm', 's', ':', ' ', 'p', 'e', 'r', 'f', 'o', 'r', 'm', 'a', 'n', 'c', 'e', '.', 'n', 'o', 'w', '(', ')', ' ', '-', ' ', 's', 't', 'a', 'r', 't', ',', '\n'],  --           exec_duration_ms: performance.now() - start,
   [' ', ' ', ' ', ' ', ' ', ' ', ' ', ' ', '}', ')', ';', '\n'],  --         });
   [' ', ' ', ' ', ' ', ' ', ' ', ' ', ' ', 'r', 'e', 's', 'o', 'l', 'v', 'e', '(', 'd', 'a', 't', 'a', ')', ';', '\n'],  --         resolve(data);
   [' ', ' ', ' ', ' ', ' ', ' ', '}', '\n'],  --       }
   [' ', ' ', ' ', ' ', '}', ')', ';', '\n'],  --     });
   ['\n'],  -- 
   [' ', ' ', ' ', ' ', 'C', 'O', 'N', 'N', 'E', 'C', 'T', 'I', 'O', 'N', '.', 's', 'e', 'n', 'd', '(', 'e', 'x', 'e', 'c', 'u', 't', 'e', '(', 'r', 'e', 'q', 'u', 'e', 's', 't', ')', ')', ';', '\n'],  --     CONNECTION.send(execute(request));
   [' ', ' ', '}', ')', ';', '\n'],  --   });
   ['\n'],  -- 
   [' ', ' ', 'r', 'e', 't', 'u', 'r', 'n', ' ', 'p', 'r', 'o', 'm', 'i', 's', 'e', '\n'],  --   return promise
   [' ', ' ', ' ', ' ', '.', 't', 'h', 'e', 'n', '(', '(', 'v', 'a', 'l', 'u', 'e', ':', ' ', 'T', ')', ' ', '=', '>', ' ', '{', '\n'],  --     .then((value: T) => {
   [' ', ' ', ' ', ' ', ' ', ' ', 'r', 'e', 't', 'u', 'r', 'n', ' ', 'v', 'a', 'l', 'u', 'e', ';', '\n'],  --       return value;
   [' ', ' ', ' ', ' ', '}', ')', '\n'],  --     })
   [' ', ' ', ' ', ' ', '.', 'f', 'i', 'n', 'a', 'l', 'l', 'y', '(', '(', ')', ' ', '=', '>', ' ', 'u', 'n', 's', 'u', 'b', 's', 'c', 'r', 'i', 'b', 'e', ' ', '&', '&', ' ', 'u', 'n', 's', 'u', 'b', 's', 'c', 'r', 'i', 'b', 'e', '(', ')', ')', ';', '\n'],  --     .finally(() => unsubscribe && unsubscribe());
   ['}', '\n']  -- }
  ]

/-- `WebsocketClient::get()`: `src/rpc/clients/mod.rs:5-9`. -/
def clientText : Str := clientLines.flatten

end Verif.Client
