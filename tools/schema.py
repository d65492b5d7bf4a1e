#!/usr/bin/env python3
"""Writes lean/Verif/Spec/ExampleSchema.lean: the schema in /repo/opsqueue/opsqueue_example_database_schema.db, which is the database sqlx checks the queries of the crate against when it is compiled."""
import sqlite3, re, shutil, os
SRC='/repo/opsqueue/opsqueue_example_database_schema.db'
shutil.copy(SRC,'/tmp/example_schema.db')
c=sqlite3.connect('/tmp/example_schema.db')
q=lambda s:'"'+s+'"'
def parse(e):
    tok=re.findall(r'\w+|>>|[()%*+]',e); pos=[0]
    def peek(): return tok[pos[0]] if pos[0]<len(tok) else None
    def nxt(): pos[0]+=1; return tok[pos[0]-1]
    def atom():
        t=nxt()
        if t=='(':
            r=shift(); assert nxt()==')'; return r
        return f'(.lit {t})' if t.isdigit() else f'(.col {q(t)})'
    def left(sub,ops):
        a=sub()
        while peek() in ops:
            o=ops[nxt()]; a=f'({o} {a} {sub()})'
        return a
    def prod(): return left(atom,{'*':'.mul','%':'.mod'})
    def sums(): return left(prod,{'+':'.add'})
    def shift(): return left(sums,{'>>':'.shr'})
    r=shift(); assert pos[0]==len(tok); return r
def val(d):
    if d is None: return '.null'
    if d=='false': return '.int 0'
    if re.fullmatch(r'-?\d+',d): return f'.int {d}'
    assert d[0]==d[-1] and d[0] in '\'"',d
    return f'.text {q(d[1:-1])}'
TY={'INTEGER':'.integer','TEXT':'.text','BLOB':'.blob'}
tables=[]
for name,sql in c.execute("select name,sql from sqlite_master where type='table' order by name").fetchall():
    if name.startswith('_sqlx'): continue
    strict='STRICT' in sql.rsplit(')',1)[1]
    plain=re.sub(r'--.*','',sql)
    cols=[]; pk=[]
    for cid,n,ty,nn,d,k,hid in c.execute(f'pragma table_xinfo({name})'):
        gen='none'
        if hid:
            m=re.search(r'\b'+n+r'\b[^,]*?GENERATED ALWAYS AS \(',plain); i=m.end(); dep=1; j=i
            while dep: dep+={'(':1,')':-1}.get(plain[j],0); j+=1
            gen=f'some {parse(plain[i:j-1])}'
        ty=f'some {TY[ty]}' if strict else 'none'
        cols.append(f'⟨{q(n)}, {ty}, {str(bool(nn)).lower()}, {val(d)}, {gen}⟩')
        if k: pk.append((k,n))
    tables.append(f'  ⟨{q(name)}, [{", ".join(q(n) for _,n in sorted(pk))}],\n    [ '+',\n      '.join(cols)+' ]⟩')
idx=[]
for name,t in c.execute("select name,tbl_name from sqlite_master where type='index' and sql is not null order by name").fetchall():
    idx.append(f'  ⟨{q(name)}, {q(t)}, [{", ".join(q(r[2]) for r in c.execute(f"pragma index_info({name})"))}]⟩')
vers=[str(r[0]) for r in c.execute('select version from _sqlx_migrations order by version')]
out='''import Verif.Model.Upgrade

/-!
# The schema the queries were checked against

Written by `tools/schema.py` from /repo/opsqueue/opsqueue_example_database_schema.db, the database that sqlx checks the
queries of the crate against when it is compiled. The declared types are given for STRICT tables only. Used by `C74`.
-/

namespace Opsqueue.Upgrade

/-- A column: its name, its type (in a STRICT table), whether it is NOT NULL, its default, how it is computed. -/
structure ExampleColumn where
  name : String
  ty : Option Ty
  notNull : Bool
  dflt : Val
  gen : Option Expr
deriving DecidableEq

/-- A table: its name, primary key and columns. -/
structure ExampleTable where
  name : String
  pk : List String
  cols : List ExampleColumn
deriving DecidableEq

/-- The tables. -/
def exampleTables : List ExampleTable := [
'''+',\n'.join(tables)+''' ]

/-- The indexes. -/
def exampleIndexes : List Index := [
'''+',\n'.join(idx)+''' ]

/-- The versions in `_sqlx_migrations`. -/
def exampleVersions : List Nat := [
  '''+',\n  '.join(vers)+''' ]

/-- What the example database says about a table, of a table of a database. -/
def Decl.toExample (d : Decl) : ExampleTable :=
  ⟨d.name, d.pk, d.cols.map fun c => ⟨c.name, if d.strict then some c.ty else none, c.notNull, c.dflt, c.gen⟩⟩

end Opsqueue.Upgrade
'''
open(os.path.dirname(os.path.abspath(__file__))+'/../lean/Verif/Spec/ExampleSchema.lean','w').write(out)
