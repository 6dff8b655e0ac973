"""Transcribe the mutation runs (/root/mut/results.jsonl) to seeded/LOG.jsonl.
tools/tightened.json maps 'definition|edit' to the theorems tightened after a survivor."""
import json, os
T=json.load(open('tools/tightened.json')) if os.path.exists('tools/tightened.json') else {}
with open('seeded/LOG.jsonl','w') as f:
    for l in open('/root/mut/results.jsonl'):
        d=json.loads(l)
        f.write(json.dumps(dict(definition=d['definition'],edit=d['edit'],claim=d['claim'],failed=d['failed'],
            survived=d['ok'],tightened=T.get(d['definition']+'|'+d['edit'],[])),ensure_ascii=False)+'\n')
