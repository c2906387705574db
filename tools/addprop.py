import json,sys
# usage: addprop id title statement quantifier why anchors...
a=sys.argv[1:]
json_line=json.dumps({"id":a[0],"title":a[1],"statement":a[2],"quantifier":a[3],"why_tests_cant":a[4],"anchors":a[5:]},ensure_ascii=False)
open('/verif/properties.jsonl','a').write(json_line+"\n")
