import json,sys
p='/verif/tools/status.json'
d=json.load(open(p)); d[sys.argv[1]]={"status":sys.argv[2],"note":sys.argv[3]}
d=dict(sorted(d.items()))
json.dump(d,open(p,'w'),indent=1,ensure_ascii=False)
