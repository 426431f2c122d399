#!/usr/bin/env python3
"""Generates lean/Verif/Proofs/SelfTestData.lean: the intermediate values of the crypto_scrypt self-test
(all of them are re-checked by the Lean kernel)."""
import hashlib, struct, os
P=b"pleaseletmein"; S=b"SodiumChloride"; N=16; r=8; p=1
def rotl(a,b): return ((a<<b)|(a>>(32-b)))&0xffffffff
def salsa(x):
    z=list(x)
    def q(d,a,b,n): z[d]^=rotl((z[a]+z[b])&0xffffffff,n)
    for _ in range(4):
        for a,b,c,d in ((0,4,8,12),(5,9,13,1),(10,14,2,6),(15,3,7,11),(0,1,2,3),(5,6,7,4),(10,11,8,9),(15,12,13,14)):
            q(b,a,d,7);q(c,b,a,9);q(d,c,b,13);q(a,d,c,18)
    return [(u+v)&0xffffffff for u,v in zip(x,z)]
def bm(B):
    X=B[-1];Y=[]
    for b in B:
        X=salsa([u^v for u,v in zip(X,b)]);Y.append(X)
    return Y[0::2]+Y[1::2]
def blocks(b): return [list(struct.unpack('<16I',b[i:i+64])) for i in range(0,len(b),64)]
B=hashlib.pbkdf2_hmac('sha256',P,S,1,128*r*p)
X=blocks(B);V=[]
for i in range(N): V.append(X);X=bm(X)
for i in range(N):
    j=X[-1][0]%N
    X=bm([[u^v for u,v in zip(a,b)] for a,b in zip(X,V[j])])
B1=b''.join(struct.pack('<16I',*b) for b in X)
assert hashlib.pbkdf2_hmac('sha256',P,B1,1,64)==hashlib.scrypt(P,salt=S,n=N,r=r,p=p,dklen=64)
def lit(X): return "[" + ",\n  ".join("["+", ".join(map(str,b))+"]" for b in X) + "]"
out=f"""/-
Generated by tools/selftest.py: the 1024-byte intermediate values of the scrypt self-test
(pleaseletmein / SodiumChloride / 16 / 8 / 1), as 16 blocks of 16 little-endian words.
These are claims; the kernel checks them in SelfTest.lean.
-/
namespace Scrypt

def selfB0 : List (List Nat) := {lit(blocks(B))}

def selfB1 : List (List Nat) := {lit(X)}

end Scrypt
"""
open(os.path.join(os.path.dirname(__file__),'../lean/Verif/Proofs/SelfTestData.lean'),'w').write(out)
